import Verif.TableCsv.LoadLemmas
import Verif.TableCsv.WriteLemmas

/-!
# C120: tables as CSV

`Hist (create ci rs) hs t`: the table `t` is what a new table becomes by any calls.  `view t` is the grid of names and values a
caller sees.
-/

namespace Verif.TableCsv
open Verif Verif.Table
open Verif.Csv (Good norm CellOk)

theorem fresh_find {ci : Bool} {g : Grid} {hd : List Bytes} {c : List (List (Option Bytes))} {n : Bytes} (hn : n ∈ hd) :
    Grid.find ci ⟨g.names ++ (fresh ci g hd).map some, c⟩ n ≠ none := by
  intro h
  unfold Grid.find at h
  rw [List.findIdx?_eq_none_iff] at h
  have hfr : n ∈ fresh ci g hd := by
    unfold fresh
    rw [List.mem_filter]
    refine ⟨hn, ?_⟩
    rw [Option.isNone_iff_eq_none]
    unfold Grid.find
    rw [List.findIdx?_eq_none_iff]
    intro x hx
    exact h x (List.mem_append.mpr (.inl hx))
  have := h (some n) (List.mem_append.mpr (.inr (List.mem_map.mpr ⟨n, hfr, rfl⟩)))
  simp [Alike] at this

/-- Loading CSV with a header into any table: columns with names that are not there yet are added at the right, and each row of
the CSV becomes a row at the bottom that has each value under its name and nothing elsewhere.

Partial, for all names must be there, and no two may be the same: see `unnamed_fails` and `doubled_fails`.  `rs` is what the
random generator gives out, which must be different numbers, as in `Verif.Table`. -/
theorem load_header_partial {ci : Bool} {rs : List Nat} {hs : List (Op × Out)} {t : Tbl} (hnd : rs.Nodup) (h0 : 0 ∉ rs)
    (hh : Hist (create ci rs) hs t) {data : List UInt8} (h1 : data ≠ []) (h2 : data.head? ≠ some 0) {d q : UInt8} {trim : Bool}
    {hd : List Bytes} {rows : List (List (Option Bytes))} (hp : Csv.table trim d q data = some (hd.map some :: rows))
    (hne : ∀ n ∈ hd, n ≠ []) (hdis : Distinct ci hd) (hr : hd.length + rows.length ≤ t.rs.length) :
    ∃ t', loadCsv t data d q trim true = some (t', true) ∧ view t' = joined ci (view t) hd rows := by
  obtain ⟨hi, hci, _⟩ := hist_sound (Inv.create ci hnd h0) hh
  have hci : t.ci = ci := hci
  subst hci
  obtain ⟨t1, e1, i1, c1, r1, w1, a1⟩ := loadCols_spec hd hi hne hdis (by omega)
  have hf : ∀ n ∈ hd, (abs t1).find t1.ci n ≠ none := by
    intro n hn
    rw [c1, a1]
    exact fresh_find hn
  obtain ⟨t2, e2, i2, c2, a2⟩ := loadRows_spec rows none i1 (by rw [c1]; exact hdis) hf (by omega)
  refine ⟨t2, ?_, ?_⟩
  · unfold loadCsv
    rw [if_neg (by simp [h1, h2]), Csv.parse_correct, hp]
    simp only [if_true, List.headD_cons, List.tail_cons, e1, Option.bind_some, e2, Option.map_some]
  · rw [abs_view, a2, a1, c1, abs_view, joined]

/-- Loading CSV without a header into a table that has as many columns as the CSV: each row of the CSV becomes a row at the
bottom.

Partial, for if the CSV is wider the values are lost, and if it is narrower the table grows: see `wide_fails` and
`narrow_fails`. -/
theorem load_plain_partial {ci : Bool} {rs : List Nat} {hs : List (Op × Out)} {t : Tbl} (hnd : rs.Nodup) (h0 : 0 ∉ rs)
    (hh : Hist (create ci rs) hs t) {data : List UInt8} (h1 : data ≠ []) (h2 : data.head? ≠ some 0) {d q : UInt8} {trim : Bool}
    {rows : List (List (Option Bytes))} (hp : Csv.table trim d q data = some rows)
    (hw : ∀ r ∈ rows, r.length = (view t).names.length) (hr : rows.length ≤ t.rs.length) :
    ∃ t', loadCsv t data d q trim false = some (t', true) ∧ view t' = ⟨(view t).names, (view t).cells ++ rows⟩ := by
  obtain ⟨hi, _, _⟩ := hist_sound (Inv.create ci hnd h0) hh
  have hl : (view t).names.length = t.cols.length := by simp [view]
  rw [hl] at hw
  obtain ⟨t2, e2, i2, c2, a2⟩ := plainRows_spec rows hi hw hr
  refine ⟨t2, ?_, by rw [abs_view, a2, abs_view]⟩
  unfold loadCsv
  rw [if_neg (by simp [h1, h2]), Csv.parse_correct, hp]
  have hb : t.cols.length - (rows.headD []).length = 0 := by
    cases rows with
    | nil =>
      exfalso
      unfold Csv.table at hp
      split at hp <;> simp at hp
    | cons r rows => rw [List.headD_cons, hw r (by simp)]; omega
  simp only [hb, Bool.false_eq_true, if_false, loadBlank, Option.bind_some, e2, Option.map_some]

/-- Text that is not CSV is refused and the table is left as it was; empty text is accepted and does nothing. -/
theorem load_none (t : Tbl) (data : List UInt8) (d q : UInt8) (trim header : Bool) :
    ((data = [] ∨ data.head? = some 0) → loadCsv t data d q trim header = some (t, true)) ∧
    (data ≠ [] → data.head? ≠ some 0 → Csv.table trim d q data = none → loadCsv t data d q trim header = some (t, false)) := by
  constructor
  · intro h
    unfold loadCsv
    rw [if_pos h]
  · intro h1 h2 h3
    unfold loadCsv
    rw [if_neg (by simp [h1, h2]), Csv.parse_correct, h3]

theorem alike_refl (ci : Bool) (a : Bytes) : Alike ci a a := by cases ci <;> simp [Alike]

theorem alike_symm {ci : Bool} {a b : Bytes} (h : Alike ci a b) : Alike ci b a := by
  cases ci <;> simpa [Alike] using (by simpa [Alike] using h : _ = _).symm

/-- The values under names that differ are the values. -/
theorem under_all {ci : Bool} : ∀ (hd : List Bytes) (r : List (Option Bytes)), Distinct ci hd → r.length = hd.length →
    hd.map (under ci hd r) = r
  | [], [], _, _ => rfl
  | [], _ :: _, _, h => by simp at h
  | _ :: _, [], _, h => by simp at h
  | n :: hd, v :: r, hdis, hl => by
    obtain ⟨p1, p2⟩ := List.pairwise_cons.mp hdis
    rw [List.map_cons]
    have e1 : under ci (n :: hd) (v :: r) n = v := by
      unfold under
      rw [List.zip_cons_cons, List.find?_cons_of_pos (by simpa using alike_refl ci n)]
      rfl
    rw [e1]
    congr 1
    rw [← under_all hd r p2 (by simpa using hl)]
    refine List.map_congr_left fun m hm => ?_
    unfold under
    rw [List.zip_cons_cons, List.find?_cons_of_neg (by simpa using p1 m hm)]
    have : hd.map (fun n => ((hd.zip r).find? fun p => decide (Alike ci p.1 n)).bind (·.2)) = r := under_all hd r p2 (by simpa using hl)
    rw [this]

theorem joined_new {ci : Bool} (hd : List Bytes) (rows : List (List (Option Bytes))) (hdis : Distinct ci hd)
    (hl : ∀ r ∈ rows, r.length = hd.length) : joined ci ⟨[], []⟩ hd rows = ⟨hd.map some, rows⟩ := by
  have hf : fresh ci ⟨[], []⟩ hd = hd := List.filter_eq_self.mpr fun n _ => rfl
  unfold joined
  rw [hf]
  simp only [List.nil_append, List.map_nil, List.map_map]
  congr 1
  rw [← List.map_id rows, List.map_map]
  refine List.map_congr_left fun r hr => ?_
  exact under_all hd r hdis (hl r hr)

/-- The names in a table that calls have made are different. -/
theorem inv_distinct {t : Tbl} (h : Inv t) {hd : List Bytes} (e : (view t).names = hd.map some) : Distinct t.ci hd := by
  unfold Distinct
  rw [List.pairwise_iff_getElem]
  intro i j hi hj hij ha
  rw [abs_view] at e
  have hi' : (abs t).names[i]? = some (some hd[i]) := by rw [e]; simp [hi]
  have hj' : (abs t).names[j]? = some (some hd[j]) := by rw [e]; simp [hj]
  cases hf : (abs t).find t.ci hd[i] with
  | none =>
    unfold Grid.find at hf
    rw [List.findIdx?_eq_none_iff] at hf
    have := hf _ (List.mem_of_getElem? hi')
    simp [Alike] at this
  | some p =>
    have a := (find_names h hf i).mpr ⟨_, hi', alike_refl _ _⟩
    have b := (find_names h hf j).mpr ⟨_, hj', ha⟩
    omega

theorem lines_ok {d q : UInt8} (g : Good d q) {n : Bytes} (hn : n ≠ []) (h0 : 0 ∉ n) (ns : List (Option Bytes)) (m : List (List (Option Bytes))) :
    lines d q ((some n :: ns) :: m) ≠ [] ∧ (lines d q ((some n :: ns) :: m)).head? ≠ some 0 := by
  have key : ∃ b l, quoted d q (some n) = b :: l ∧ b ≠ 0 := by
    rw [quoted_eq g]
    split
    · exact ⟨q, _, rfl, g.q0⟩
    · cases n with
      | nil => exact absurd rfl hn
      | cons b l => exact ⟨b, l, rfl, fun e => h0 (by simp [e])⟩
  obtain ⟨b, l, e, hb⟩ := key
  have hrow : ∃ l, rowText d q (some n :: ns) = b :: l := by
    cases ns with
    | nil => exact ⟨l, e⟩
    | cons c cs => rw [rowText, e]; exact ⟨_, rfl⟩
  obtain ⟨l, hrow⟩ := hrow
  have hall : ∃ l, lines d q ((some n :: ns) :: m) = b :: l := by
    cases m with
    | nil => exact ⟨l, hrow⟩
    | cons c cs => rw [lines, hrow]; exact ⟨_, rfl⟩
  obtain ⟨l, hall⟩ := hall
  rw [hall]
  exact ⟨by simp, by simpa using hb⟩

/-- Writing any table as CSV with a header and loading that into a new table gives the same names and values, where an empty
value comes back as no value.

Partial: every column must have a name, loading must not trim, no name or value may have a zero byte in it or consist only
of quotes, and the last row of a table of one column must have a value: see `trim_fails`, `quotes_fails` and `last_row_fails`. -/
theorem round_trip_partial {ci : Bool} {rs rs' : List Nat} {hs : List (Op × Out)} {t : Tbl} (hnd : rs.Nodup) (h0 : 0 ∉ rs)
    (hh : Hist (create ci rs) hs t) (hnd' : rs'.Nodup) (h0' : 0 ∉ rs') {d q : UInt8} (g : Good d q)
    {hd : List Bytes} (hnames : (view t).names = hd.map some) (hc : hd ≠ []) (hne : ∀ n ∈ hd, n ≠ [])
    (okn : ∀ n ∈ hd, CellOk q (some n)) (okc : ∀ r ∈ (view t).cells, ∀ c ∈ r, CellOk q c)
    (hlast : 1 < hd.length ∨ ∀ r, (view t).cells.getLast? = some r → ∃ s, some s ∈ r ∧ s ≠ [])
    (hr : hd.length + (view t).cells.length ≤ rs'.length) :
    ∃ t', loadCsv (create ci rs') (writeCsv t d q true) d q false true = some (t', true) ∧
      view t' = ⟨hd.map some, (view t).cells.map (·.map norm)⟩ := by
  obtain ⟨hi, hci, _⟩ := hist_sound (Inv.create ci hnd h0) hh
  have hci : t.ci = ci := hci
  have hdis : Distinct ci hd := by rw [← hci]; exact inv_distinct hi hnames
  have hcols : t.cols ≠ [] := by
    intro e
    have : (view t).names = [] := by simp [view, e]
    rw [hnames] at this
    exact hc (List.map_eq_nil_iff.mp this)
  have hw := writeCsv_eq t d q true hcols (.inl rfl)
  rw [if_pos rfl, hnames] at hw
  have hrectc : ∀ r ∈ (view t).cells, r.length = hd.length := by
    intro r hr
    have h1 : (view t).names.length = hd.length := by rw [hnames]; simp
    rw [← h1, abs_view]
    rw [abs_view] at hr
    exact abs_rect t r hr
  have hrect : ∀ r ∈ [hd.map some] ++ (view t).cells, r.length = hd.length := by
    intro r hr
    rcases List.mem_append.mp hr with h | h
    · rw [List.mem_singleton.mp h, List.length_map]
    · exact hrectc r h
  have hok : ∀ r ∈ [hd.map some] ++ (view t).cells, ∀ c ∈ r, CellOk q c := by
    intro r hr c hc
    rcases List.mem_append.mp hr with h | h
    · rw [List.mem_singleton.mp h] at hc
      obtain ⟨n, hn, rfl⟩ := List.mem_map.mp hc
      exact okn n hn
    · exact okc r h c hc
  have hshow : Shows (([hd.map some] ++ (view t).cells).getLastD []) := by
    rw [List.getLastD_eq_getLast?, List.getLast?_append]
    cases hl : (view t).cells.getLast? with
    | none =>
      obtain ⟨n, hn⟩ := List.exists_mem_of_ne_nil _ hc
      exact .inr ⟨n, List.mem_map.mpr ⟨n, hn, rfl⟩, hne n hn⟩
    | some r =>
      rcases hlast with h | h
      · exact .inl (by rw [← hrectc r (List.mem_of_getLast? hl)] at h; exact h)
      · exact .inr (h r hl)
  have hparse := lines_parse g ([hd.map some] ++ (view t).cells) hd.length (by simp)
    (List.length_pos_iff.mpr hc) hrect hok hshow
  rw [Csv.parse_correct, ← hw] at hparse
  have hnm : (hd.map some).map norm = hd.map some := by
    rw [List.map_map]
    refine List.map_congr_left fun n hn => ?_
    cases n with
    | nil => exact absurd rfl (hne _ hn)
    | cons => rfl
  rw [List.map_append, List.map_cons, List.map_nil, hnm] at hparse
  have htext : writeCsv t d q true ≠ [] ∧ (writeCsv t d q true).head? ≠ some 0 := by
    rw [hw]
    cases hd with
    | nil => exact absurd rfl hc
    | cons n ns => exact lines_ok g (hne n (by simp)) ((okn n (by simp) n rfl).1) (ns.map some) (view t).cells
  obtain ⟨t', e, v⟩ := load_header_partial (ci := ci) (t := create ci rs') hnd' h0' .nil htext.1 htext.2
    (Option.some.inj hparse) hne hdis (by simpa [create] using hr)
  refine ⟨t', e, ?_⟩
  rw [v]
  have : view (create ci rs') = ⟨[], []⟩ := rfl
  rw [this]
  exact joined_new hd _ hdis (by
    intro r hr
    obtain ⟨r', h', rfl⟩ := List.mem_map.mp hr
    rw [List.length_map]
    exact hrectc r' h')

/-- Any table with columns, written as CSV, stands for its rows, with its names first if asked for.  Partial as
`round_trip_partial`, but for the names. -/
theorem written_partial (t : Tbl) {d q : UInt8} (g : Good d q) (header : Bool) (hc : (view t).names ≠ [])
    (hr : header = true ∨ (view t).cells ≠ [])
    (okn : header = true → ∀ n ∈ (view t).names, CellOk q n) (okc : ∀ r ∈ (view t).cells, ∀ c ∈ r, CellOk q c)
    (hlast : 1 < (view t).names.length ∨
      ∀ r, ((if header then [(view t).names] else []) ++ (view t).cells).getLast? = some r → ∃ s, some s ∈ r ∧ s ≠ []) :
    Csv.table false d q (writeCsv t d q header) =
      some (((if header then [(view t).names] else []) ++ (view t).cells).map (·.map norm)) := by
  have hcols : t.cols ≠ [] := fun e => hc (by simp [view, e])
  have hrows : header = true ∨ t.rows ≠ [] := hr.imp_right fun h e => h (by simp [view, e])
  rw [writeCsv_eq t d q header hcols hrows]
  have hm : (if header then [(view t).names] else []) ++ (view t).cells ≠ [] := by
    rcases hr with h | h
    · simp [h]
    · simp [h]
  have hrect : ∀ r ∈ (if header then [(view t).names] else []) ++ (view t).cells, r.length = (view t).names.length := by
    intro r hr
    rcases List.mem_append.mp hr with h | h
    · split at h
      · rw [List.mem_singleton.mp h]
      · cases h
    · rw [abs_view] at h ⊢
      exact abs_rect t r h
  have hok : ∀ r ∈ (if header then [(view t).names] else []) ++ (view t).cells, ∀ c ∈ r, CellOk q c := by
    intro r hr c hc
    rcases List.mem_append.mp hr with h | h
    · split at h
      · rename_i hh
        rw [List.mem_singleton.mp h] at hc
        exact okn hh c hc
      · cases h
    · exact okc r h c hc
  have hshow : Shows (((if header then [(view t).names] else []) ++ (view t).cells).getLastD []) := by
    rw [List.getLastD_eq_getLast?, List.getLast?_eq_some_getLast hm]
    rcases hlast with h | h
    · exact .inl (by rw [← hrect _ (List.getLast_mem hm)] at h; exact h)
    · exact .inr (h _ (List.getLast?_eq_some_getLast hm))
  have := lines_parse g _ (view t).names.length hm (List.length_pos_iff.mpr hc) hrect hok hshow
  rw [Csv.parse_correct] at this
  exact Option.some.inj this

/-! ## Cases that meet the hypotheses -/

/-- A table of the columns `a` and `b` with the rows `x,"y`, nothing and nothing, ` z`. -/
private def ops : List Op := [.insCol 0 [97], .insCol 1 [98], .insRow 0, .insRow 1, .setAt 0 0 (some [120, 44, 34, 121]),
  .setAt 1 1 (some [32, 122])]

private def tab : Tbl := ((exec (create true [5, 6, 7, 8]) ops).map (·.1)).getD (create true [])

example : view tab = ⟨[some [97], some [98]], [[some [120, 44, 34, 121], none], [none, some [32, 122]]]⟩ := by decide +kernel

/-- It is made by calls. -/
example : ∃ hs, Hist (create true [5, 6, 7, 8]) hs tab ∧ hs.length = 6 := by
  have h : ∀ t op t' out, Ok t.ci (view t) op → Lawful op → step t op = some (t', out) → ∀ hs t'', Hist t' hs t'' →
    Hist t ((op, out) :: hs) t'' := fun _ _ _ _ h1 h2 h3 _ _ h4 => .cons h1 h2 h3 h4
  exact ⟨_, h _ (.insCol 0 [97]) _ _ trivial trivial rfl _ _ (h _ (.insCol 1 [98]) _ _ trivial trivial rfl _ _
    (h _ (.insRow 0) _ _ trivial trivial rfl _ _ (h _ (.insRow 1) _ _ trivial trivial rfl _ _
    (h _ (.setAt 0 0 (some [120, 44, 34, 121])) _ _ trivial trivial rfl _ _
    (h _ (.setAt 1 1 (some [32, 122])) _ _ trivial trivial rfl _ _ .nil))))), rfl⟩

example : Good 44 34 := ⟨by decide, by decide, by decide, by decide, by decide, by decide, by decide⟩

/-- It is written with quotes where they are needed: `a,b`, `"x,""y",` and `, z`. -/
example : writeCsv tab 44 34 true =
    [97, 44, 98, 13, 10, 34, 120, 44, 34, 34, 121, 34, 44, 13, 10, 44, 32, 122] := by decide +kernel

/-- And comes back. -/
example : (loadCsv (create true [1, 2, 3, 4]) (writeCsv tab 44 34 true) 44 34 false true).map (fun r => (view r.1, r.2)) =
    some (view tab, true) := by decide +kernel

/-- Loading `b,c` and `1,2` into it. -/
example : (loadCsv { tab with rs := [1, 2, 3] } [98, 44, 99, 10, 49, 44, 50] 44 34 false true).map (fun r => (view r.1, r.2)) =
    some (⟨[some [97], some [98], some [99]],
      [[some [120, 44, 34, 121], none, none], [none, some [32, 122], none], [none, some [49], some [50]]]⟩, true) := by
  decide +kernel

example : Csv.table false 44 34 [98, 44, 99, 10, 49, 44, 50] = some ([[98], [99]].map some :: [[some [49], some [50]]]) := by
  decide +kernel

/-- Loading `1,2` without a header into it. -/
example : (loadCsv { tab with rs := [1] } [49, 44, 50] 44 34 false false).map (fun r => (view r.1).cells.length) = some 3 := by
  decide +kernel

/-! ## Where the code does something else -/

/-- A table of one column `a` and the given values. -/
private def column (vs : List (Option Bytes)) : Tbl :=
  ((exec (create false [1, 2, 3]) (.insCol 0 [97] :: (List.range vs.length).flatMap fun i =>
    [.insRow i, .setAt i 0 (vs[i]?.getD none)])).map (·.1)).getD (create false [])

private def back (t : Tbl) (trim : Bool) : Option Grid :=
  (loadCsv (create false [1, 2, 3]) (writeCsv t 44 34 true) 44 34 trim true).map fun r => view r.1

/-- Without a header, the values of columns the table does not have are lost: a new table gets rows but no columns. -/
theorem wide_fails : (loadCsv (create false [1, 2, 3, 4]) [49, 44, 50] 44 34 false false).map (fun r => (view r.1, r.2)) =
    some (⟨[], [[]]⟩, true) := by decide +kernel

/-- Without a header, a table that has more columns than the CSV gets yet more columns: here `1` is loaded into two columns. -/
theorem narrow_fails : (loadCsv { tab with rs := [1, 2, 3] } [49] 44 34 false false).map (fun r => (view r.1).names) =
    some [some [97], some [98], none] := by decide +kernel

/-- A header with a name that is not there, `,b` and then `1,2`, makes the function read a variable that was never set. -/
theorem unnamed_fails : loadCsv (create false [1, 2, 3, 4]) [44, 98, 10, 49, 44, 50] 44 34 false true = none := by decide +kernel

/-- If it is not the first, the column before it gets its value: `b,` and then `1,2` gives `2` under `b`. -/
theorem unnamed_later_fails :
    (loadCsv (create false [1, 2, 3, 4]) [98, 44, 10, 49, 44, 50] 44 34 false true).map (fun r => view r.1) =
      some ⟨[some [98], none], [[some [50], none]]⟩ := by decide +kernel

/-- Of two columns with the same name only the last is kept: `a,a` and then `1,2`. -/
theorem doubled_fails : (loadCsv (create false [1, 2, 3, 4]) [97, 44, 97, 10, 49, 44, 50] 44 34 false true).map (fun r => view r.1) =
    some ⟨[some [97]], [[some [50]]]⟩ := by decide +kernel

/-- A space at the start of a value is not protected by quotes, so it is lost if loading trims. -/
theorem trim_fails : view (column [some [32, 120]]) = ⟨[some [97]], [[some [32, 120]]]⟩ ∧
    back (column [some [32, 120]]) true = some ⟨[some [97]], [[some [120]]]⟩ := by decide +kernel

/-- A value that is one quote comes back as two. -/
theorem quotes_fails : view (column [some [34]]) = ⟨[some [97]], [[some [34]]]⟩ ∧
    back (column [some [34]]) false = some ⟨[some [97]], [[some [34, 34]]]⟩ := by decide +kernel

/-- The last row of a table of one column is lost if it has no value. -/
theorem last_row_fails : view (column [some [120], none]) = ⟨[some [97]], [[some [120]], [none]]⟩ ∧
    back (column [some [120], none]) false = some ⟨[some [97]], [[some [120]]]⟩ := by decide +kernel

end Verif.TableCsv
