import Verif.TableMerge.Lemmas

/-!
# C126: merging tables

`Hist (create ci rs) hs t`: the table `t` is what a new table becomes by any calls.  `view t` is the grid of names and values a
caller sees, and `joined` (`Verif.TableCsv`) is a grid with more columns at the right and rows below.
-/

namespace Verif.TableMerge
open Verif Verif.Table Verif.TableCsv

/-- The names of a table differ. -/
theorem names_distinct {t : Tbl} (h : Inv t) {hd : List Bytes} (hn : (abs t).names = hd.map some) : Distinct t.ci hd := by
  refine List.pairwise_iff_getElem.mpr fun i j hi hj hij ha => ?_
  have get : ∀ (k : Nat) (hk : k < hd.length), ∃ c, t.cols[k]? = some c ∧ aget ideq t.idName c = some hd[k] := by
    intro k hk
    have := names_get t k
    rw [hn, List.getElem?_map, List.getElem?_eq_getElem hk, Option.map_some] at this
    obtain ⟨c, e1, e2⟩ := Option.map_eq_some_iff.mp this.symm
    exact ⟨c, e1, e2⟩
  obtain ⟨c, e1, e2⟩ := get i hi
  obtain ⟨d, f1, f2⟩ := get j hj
  have a1 := (h.names hd[j] c).2 ⟨List.mem_of_getElem? e1, _, e2, ha⟩
  have a2 := (h.names hd[j] d).2 ⟨List.mem_of_getElem? f1, _, f2, alike_refl _ _⟩
  rw [a1] at a2
  cases a2
  have := nodup_inj h.ndc e1 f1
  omega

theorem names_ne {t : Tbl} (h : Inv t) {n : Option Bytes} (hn : n ∈ (abs t).names) : n ≠ some [] := by
  obtain ⟨c, _, e⟩ := List.mem_map.mp hn
  rintro rfl
  exact (h.live c [] e).2 rfl

theorem distinct_weaken {ci ci' : Bool} (h : ci = true → ci' = true) {hd : List Bytes} (hd1 : Distinct ci' hd) : Distinct ci hd := by
  refine List.Pairwise.imp (fun {a b} hab ha => hab ?_) hd1
  cases ci with
  | true => rw [h rfl]; exact ha
  | false =>
    have : a = b := ha
    rw [this]
    exact alike_refl _ _

/-- A table without a name of a column, on either side, is refused, and nothing is added to the destination. -/
theorem merge_refused (dest src : Tbl) (h : none ∈ (view dest).names ∨ none ∈ (view src).names) :
    merge dest src = some (dest, false) := by
  unfold merge
  rcases h with h | h
  · rw [if_pos ((unnamed_iff dest).mpr ⟨none, h, .inl rfl⟩)]
  · split
    · rfl
    · rw [if_pos ((unnamed_iff src).mpr ⟨none, h, .inl rfl⟩)]

theorem not_unnamed {t : Tbl} (h : Inv t) (hn : none ∉ (view t).names) : ¬ unnamed t = true := by
  intro hu
  obtain ⟨n, hm, rfl | rfl⟩ := (unnamed_iff t).mp hu
  · exact hn hm
  · exact names_ne h (by rw [← abs_view]; exact hm) rfl

/-- Merging in terms of the invariant. -/
theorem merge_inv {dest src : Tbl} (hi : Inv dest) (hi' : Inv src) (hdn : none ∉ (view dest).names) {hd : List Bytes}
    (hsn : (view src).names = hd.map some) (hdis : Distinct dest.ci hd)
    (hr : (view src).cells.length * (hd.length + 1) ≤ dest.rs.length) :
    ∃ t', merge dest src = some (t', true) ∧ Inv t' ∧ t'.ci = dest.ci ∧
      view t' = if (view src).cells = [] then view dest else joined dest.ci (view dest) hd (view src).cells := by
  have hsn' : (abs src).names = hd.map some := by rw [← abs_view]; exact hsn
  have hcells : (view src).cells = (List.range src.rows.length).map (rowOf src) := rfl
  have hlen : (view src).cells.length = (List.range src.rows.length).length := by rw [hcells, List.length_map]
  obtain ⟨t', e1, e2, e3, e4, e5⟩ := mergeRows_spec hsn
    (fun n hn e => names_ne hi' (n := some n) (by rw [hsn']; exact List.mem_map.mpr ⟨n, hn, rfl⟩) (by rw [e]))
    (List.range src.rows.length) hi hdis (by rw [← hlen]; exact hr)
  refine ⟨t', ?_, e2, e3, ?_⟩
  · unfold merge
    rw [if_neg (not_unnamed hi hdn), if_neg (not_unnamed hi' (by rw [hsn]; simp)), e1]
    rfl
  · rw [abs_view, e5, hcells, abs_view]
    rfl

/-- Merging any two tables whose columns all have names: the columns of the source that the destination does not have are added at
the right, and each row of the source becomes a row at the bottom that has each value under its name and nothing elsewhere.  A
source without rows changes nothing.

Partial: if the destination compares names without case then so must the source: see `case_fails`. `rs` is what the random
generator gives out, which must be different numbers, as in `Verif.Table`. -/
theorem merge_partial {ci ci' : Bool} {rs rs' : List Nat} {hs hs' : List (Op × Out)} {dest src : Tbl} (hnd : rs.Nodup) (h0 : 0 ∉ rs)
    (hnd' : rs'.Nodup) (h0' : 0 ∉ rs') (hh : Hist (create ci rs) hs dest) (hh' : Hist (create ci' rs') hs' src)
    (hdn : none ∉ (view dest).names) {hd : List Bytes} (hsn : (view src).names = hd.map some) (hci : ci = true → ci' = true)
    (hr : (view src).cells.length * (hd.length + 1) ≤ dest.rs.length) :
    ∃ t', merge dest src = some (t', true) ∧
      view t' = if (view src).cells = [] then view dest else joined ci (view dest) hd (view src).cells := by
  obtain ⟨hi, hc, _⟩ := hist_sound (Inv.create ci hnd h0) hh
  obtain ⟨hi', hc', _⟩ := hist_sound (Inv.create ci' hnd' h0') hh'
  have hc : dest.ci = ci := hc
  have hc' : src.ci = ci' := hc'
  subst hc hc'
  obtain ⟨t', e1, _, _, e2⟩ := merge_inv hi hi' hdn hsn
    (distinct_weaken hci (names_distinct hi' (by rw [← abs_view]; exact hsn))) hr
  exact ⟨t', e1, e2⟩

/-! ## A case -/

/-- Columns `a` and `b`, one row. -/
private def d0 : Tbl :=
  ((exec (create false [5, 6, 7, 1, 2, 3, 4, 8, 9, 10]) [.insCol 0 [97], .insCol 1 [98], .insRow 0, .setAt 0 0 (some [120])]).map (·.1)).getD
    (create false [])

/-- Columns `c` and `a`, two rows. -/
private def s0 : Tbl :=
  ((exec (create false [5, 6, 7, 8]) [.insCol 0 [99], .insCol 1 [97], .insRow 0, .insRow 1, .setAt 0 0 (some [49]),
    .setAt 0 1 (some [50]), .setAt 1 1 (some [51])]).map (·.1)).getD (create false [])

example : (merge d0 s0).map (fun r => (view r.1, r.2)) =
    some (⟨[some [97], some [98], some [99]], [[some [120], none, none], [some [50], none, some [49]], [some [51], none, none]]⟩, true) := by
  decide +kernel

example : none ∉ (view d0).names ∧ (view s0).names = [[99], [97]].map some ∧
    (view s0).cells.length * (([[99], [97]] : List Bytes).length + 1) ≤ d0.rs.length := by decide +kernel

/-- The tables are made by calls. -/
example : ∃ hs, Hist (create false [5, 6, 7, 1, 2, 3, 4, 8, 9, 10]) hs d0 ∧ hs.length = 4 := by
  have h : ∀ t op t' out, Ok t.ci (view t) op → Lawful op → step t op = some (t', out) → ∀ hs t'', Hist t' hs t'' →
    Hist t ((op, out) :: hs) t'' := fun _ _ _ _ h1 h2 h3 _ _ h4 => .cons h1 h2 h3 h4
  exact ⟨_, h _ (.insCol 0 [97]) _ _ trivial trivial rfl _ _ (h _ (.insCol 1 [98]) _ _ trivial trivial rfl _ _
    (h _ (.insRow 0) _ _ trivial trivial rfl _ _ (h _ (.setAt 0 0 (some [120])) _ _ trivial trivial rfl _ _ .nil))), rfl⟩

/-! ## Where the code does something else -/

/-- A source with the columns `A` and `a`, whose only value is under `A`. -/
private def s1 : Tbl :=
  ((exec (create false [5, 6, 7]) [.insCol 0 [65], .insCol 1 [97], .insRow 0, .setAt 0 0 (some [49])]).map (·.1)).getD (create false [])

/-- Merged into a table that compares names without case the value is lost, for the empty cell under `a` is put on top of it. -/
theorem case_fails : (view s1).cells = [[some [49], none]] ∧
    (merge (create true [1, 2, 3, 4]) s1).map (fun r => (view r.1, r.2)) = some (⟨[some [65]], [[none]]⟩, true) := by
  decide +kernel

/-- The columns of a source without rows are not added, as they are with one row. -/
theorem no_rows_fails :
    (merge (create false [1, 2]) (((exec (create false [5]) [.insCol 0 [97]]).map (·.1)).getD (create false []))).map
      (fun r => (view r.1, r.2)) = some (⟨[], []⟩, true) := by decide +kernel

/-- A source with an unnamed column is refused. -/
example : merge d0 (((exec (create false [5]) [.insCol 0 []]).map (·.1)).getD (create false [])) = some (d0, false) :=
  merge_refused _ _ (.inr (by decide +kernel))

end Verif.TableMerge
