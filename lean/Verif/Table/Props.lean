import Verif.Table.Rows

/-! C112: tables behave like grids of cells. -/

namespace Verif.Table

/-- One step of the code is a step of the grid. -/
theorem step_sound {t t' : Tbl} {op : Op} {out : Out} (h : Inv t) (ho : Ok t.ci (view t) op) (hl : Lawful op) (e : step t op = some (t', out)) :
    Inv t' ∧ t'.ci = t.ci ∧ Grid.Step t.ci (view t) op out (view t') := by
  rw [abs_view] at ho ⊢
  rw [abs_view]
  cases op with
  | insCol i name =>
    obtain ⟨⟨t1, o⟩, e1, e2⟩ := Option.map_eq_some_iff.1 e
    cases e2
    by_cases hi : i ≤ t.cols.length
    · by_cases hn : name ≠ [] ∧ (aget (nmeq t.ci) t.nameId name).isSome = true
      · have e3 : insCol t i name = some (t, none) := by
          unfold insCol; rw [if_neg (by omega), if_pos hn]
        rw [e3] at e1; cases e1
        refine ⟨h, rfl, .insColNo (.inr ⟨hn.1, ?_⟩)⟩
        obtain ⟨c, hc⟩ := Option.isSome_iff_exists.1 hn.2
        obtain ⟨j, hj, _⟩ := h.find_some hc
        rw [hj]; simp
      · have hnone : name ≠ [] → aget (nmeq t.ci) t.nameId name = none := by
          intro hne
          cases hc : aget (nmeq t.ci) t.nameId name with
          | none => rfl
          | some c => exact absurd ⟨hne, by rw [hc]; rfl⟩ hn
        obtain ⟨id, rfl, i1, i2, i3, _⟩ := insCol_spec h hi hnone e1
        refine ⟨i1, i2, ?_⟩
        show Grid.Step t.ci (abs t) _ (.bool true) (abs t1)
        rw [i3]
        exact .insCol (by rw [abs_ncols]; exact hi) fun hne => h.find_none (hnone hne)
    · have e3 : insCol t i name = some (t, none) := by
        unfold insCol; rw [if_pos (by omega)]
      rw [e3] at e1; cases e1
      exact ⟨h, rfl, .insColNo (.inl (by rw [abs_ncols]; omega))⟩
  | setName i name =>
    cases e
    by_cases hi : i < t.cols.length
    · obtain ⟨h1, h2, h3, h4⟩ := setName_spec h ho hi
      refine ⟨h1, h2, ?_⟩
      rw [h3, h4]
      exact .setName (by rw [abs_ncols]; exact hi) fun _ j m hj hm => ho.2 j m hj hm
    · have : setName t i name = (t, false) := by
        unfold setName; rw [List.getElem?_eq_none (by omega)]
      rw [this]
      exact ⟨h, rfl, .setNameNo (.inl (by rw [abs_ncols]; omega))⟩
  | rmCol name =>
    cases e
    unfold rmCol
    by_cases hn : name = []
    · rw [if_pos hn]
      exact ⟨h, rfl, .rmColNo (by rw [hn]; exact h.find_none h.find_nil)⟩
    · rw [if_neg hn]
      cases hk : aget (nmeq t.ci) t.nameId name with
      | none => exact ⟨h, rfl, .rmColNo (h.find_none hk)⟩
      | some c =>
        obtain ⟨j, hj, hc, _⟩ := h.find_some hk
        obtain ⟨h1, h2, h3⟩ := rmColInt_spec h hc
        refine ⟨h1, h3, ?_⟩
        show Grid.Step t.ci (abs t) _ _ (abs (rmColInt t c))
        rw [h2]
        exact .rmCol hj
  | rmColAt i =>
    cases e
    unfold rmColAt
    cases hc : t.cols[i]? with
    | none => exact ⟨h, rfl, .rmColAtNo (by rw [abs_ncols]; exact List.getElem?_eq_none_iff.1 hc)⟩
    | some c =>
      obtain ⟨h1, h2, h3⟩ := rmColInt_spec h hc
      refine ⟨h1, h3, ?_⟩
      show Grid.Step t.ci (abs t) _ _ (abs (rmColInt t c))
      rw [h2]
      exact .rmColAt (by rw [abs_ncols]; exact (List.getElem?_eq_some_iff.1 hc).1)
  | rmEmptyCols =>
    cases e
    obtain ⟨h1, h2, h3, h4⟩ := rmEmptyCols_spec h
    refine ⟨h1, h2, ?_⟩
    rw [h3, h4]
    exact .rmEmptyCols
  | insRow i =>
    obtain ⟨⟨t1, o⟩, e1, e2⟩ := Option.map_eq_some_iff.1 e
    cases e2
    by_cases hi : i ≤ t.rows.length
    · obtain ⟨id, rfl, i1, i2, _, _, _, _, _, i3⟩ := insRow_spec h hi e1
      refine ⟨i1, i2, ?_⟩
      show Grid.Step t.ci (abs t) _ (.bool true) (abs t1)
      rw [i3]
      exact .insRow (by rw [abs_nrows]; exact hi)
    · have e3 : insRow t i = some (t, none) := by unfold insRow; rw [if_pos (by omega)]
      rw [e3] at e1; cases e1
      exact ⟨h, rfl, .insRowNo (by rw [abs_nrows]; omega)⟩
  | insDict i kvs fl =>
    obtain ⟨⟨t1, b⟩, e1, e2⟩ := Option.map_eq_some_iff.1 e
    cases e2
    unfold insDict at e1
    by_cases hi : i ≤ t.rows.length
    · rw [if_neg (by omega)] at e1
      by_cases hk : kvs = []
      · rw [if_pos hk] at e1
        obtain ⟨⟨t2, o⟩, e3, e4⟩ := Option.map_eq_some_iff.1 e1
        cases e4
        obtain ⟨id, rfl, i1, i2, _, _, _, _, _, i3⟩ := insRow_spec h hi e3
        refine ⟨i1, i2, ?_⟩
        show Grid.Step t.ci (abs t) _ (.bool true) (abs t2)
        rw [i3, hk]
        exact .insDict (by rw [abs_nrows]; exact hi) rfl
      · rw [if_neg hk] at e1
        obtain ⟨⟨t2, o⟩, e3, e4⟩ := Option.bind_eq_some_iff.1 e1
        have hnil : t.cols.map (aget ideq ([] : List (Nat × Bytes))) = (abs t).names.map fun _ => none := by
          unfold abs; dsimp only; rw [List.map_map]; rfl
        obtain ⟨d1, d2, d3, d4, d5, d6, d7⟩ := dictLoop_spec kvs h (row := []) (fun c v hv => by cases hv) e3
        rw [hnil] at d4
        cases o with
        | none =>
          cases e4
          rw [d6 (d7 rfl)] at d4 ⊢
          exact ⟨h, rfl, .insDictNo (.inr (by rw [d4]; rfl))⟩
        | some row =>
          dsimp only at e4
          obtain ⟨⟨t3, o⟩, e5, e6⟩ := Option.map_eq_some_iff.1 e4
          obtain ⟨id, rfl, i1, i2, i3, i4, i5, i6, i7, i8⟩ := insRow_spec d1 (by rw [d3]; exact hi) e5
          dsimp only at e6
          cases e6
          have hmem : id ∈ t3.rows := by rw [i7]; exact mem_ins.2 (.inl rfl)
          refine ⟨i1.putRow hmem (by rw [i3]; exact d5 row rfl), i2.trans d2, ?_⟩
          have := Grid.Step.insDict (i := i) (by rw [abs_nrows]; exact hi) d4
          have hab : abs { t3 with data := aput ideq t3.data id row } = (abs t2).addRow i (t2.cols.map (aget ideq row)) := by
            unfold abs Grid.addRow
            dsimp only
            rw [i3, i4, i7]
            congr 1
            rw [List.map_append, List.map_cons, ← List.map_take, ← List.map_drop]
            have hold : ∀ r ∈ t2.rows, (t2.cols.map (getInt { t3 with cols := t2.cols, idName := t2.idName, rows := t2.rows.take i ++ id :: t2.rows.drop i, data := aput ideq t3.data id row } r)) = t2.cols.map (getInt t2 r) := by
              intro r hr
              refine List.map_congr_left fun c _ => ?_
              unfold getInt
              dsimp only
              rw [iget_iput, if_neg (by rintro rfl; exact i5 hr), i6]
            have hnew : (t2.cols.map (getInt { t3 with cols := t2.cols, idName := t2.idName, rows := t2.rows.take i ++ id :: t2.rows.drop i, data := aput ideq t3.data id row } id)) = t2.cols.map (aget ideq row) := by
              refine List.map_congr_left fun c _ => ?_
              unfold getInt
              dsimp only
              rw [iget_iput, if_pos rfl]; rfl
            congr 1
            · exact List.map_congr_left fun r hr => hold r (List.mem_of_mem_take hr)
            · congr 1
              exact List.map_congr_left fun r hr => hold r (List.mem_of_mem_drop hr)
          rw [hab]
          exact this
    · rw [if_pos (by omega)] at e1; cases e1
      exact ⟨h, rfl, .insDictNo (.inl (by rw [abs_nrows]; omega))⟩
  | rmRow i =>
    cases e
    obtain ⟨h1, h2, h3⟩ := rmRow_spec h i
    refine ⟨h1, h2, ?_⟩
    rw [h3]
    exact .rmRow
  | rmEmptyRows =>
    cases e
    obtain ⟨h1, h2, h3, h4⟩ := rmEmptyRows_spec h
    refine ⟨h1, h2, ?_⟩
    rw [h3, h4]
    exact .rmEmptyRows
  | set row name v fl =>
    obtain ⟨⟨t1, b⟩, e1, e2⟩ := Option.map_eq_some_iff.1 e
    cases e2
    obtain ⟨h1, h2, _, _, h3⟩ := set_spec h e1
    refine ⟨h1, h2, ?_⟩
    have := Grid.Step.set (ci := t.ci) (g := abs t) (row := row) (name := name) (v := v) (fl := fl)
    rw [h3] at this
    exact this
  | setAt row col v =>
    cases e
    unfold setAt
    cases hr : t.rows[row]? with
    | none => exact ⟨h, rfl, .setAtNo (.inl (by rw [abs_nrows]; exact List.getElem?_eq_none_iff.1 hr))⟩
    | some r =>
      cases hc : t.cols[col]? with
      | none => exact ⟨h, rfl, .setAtNo (.inr (by rw [abs_ncols]; exact List.getElem?_eq_none_iff.1 hc))⟩
      | some c =>
        obtain ⟨h1, h2, h3⟩ := setInt_spec h hr hc v
        refine ⟨h1, h2, ?_⟩
        show Grid.Step t.ci (abs t) _ (.bool true) (abs (setInt t r c v))
        rw [h3]
        exact .setAt (by rw [abs_nrows]; exact (List.getElem?_eq_some_iff.1 hr).1) (by rw [abs_ncols]; exact (List.getElem?_eq_some_iff.1 hc).1)
  | setDict row kvs fl =>
    obtain ⟨⟨t1, b⟩, e1, e2⟩ := Option.map_eq_some_iff.1 e
    cases e2
    unfold setDict at e1
    split at e1
    · rename_i hc
      cases e1
      rw [Bool.and_eq_true, Bool.not_eq_true', Bool.or_eq_false_iff, List.any_eq_true] at hc
      obtain ⟨⟨hc1, hc2⟩, p, hp, hpn⟩ := hc
      exact ⟨h, rfl, .setDictNo (.inr ⟨hc1, hc2, p, hp, h.find_none (Option.isNone_iff_eq_none.1 hpn)⟩)⟩
    · rename_i hc
      obtain ⟨t2, e3, e4⟩ := Option.map_eq_some_iff.1 e1
      cases e4
      obtain ⟨h1, h2, h3⟩ := setDictLoop_spec kvs h e3
      refine ⟨h1, h2, ?_⟩
      rw [h3]
      refine .setDict ho ?_
      by_cases hf : fl.ignore = true
      · exact .inl hf
      · by_cases ha : fl.add = true
        · exact .inr (.inl ha)
        · refine .inr (.inr fun p hp hpn => hc ?_)
          rw [Bool.and_eq_true, Bool.not_eq_true', Bool.or_eq_false_iff, List.any_eq_true]
          refine ⟨⟨by simpa using hf, by simpa using ha⟩, p, hp, ?_⟩
          cases hk : aget (nmeq t.ci) t.nameId p.1 with
          | none => rfl
          | some c => obtain ⟨j, hj, _⟩ := h.find_some hk; rw [hpn] at hj; cases hj
  | sort name p1 name2 p2 =>
    obtain ⟨t1, e1, e2⟩ := Option.map_eq_some_iff.1 e
    cases e2
    unfold sort at e1
    by_cases hn : name = []
    · rw [if_pos hn] at e1; cases e1
      exact ⟨h, rfl, .sortNo (.inl (by rw [hn]; exact h.find_none h.find_nil))⟩
    · rw [if_neg hn] at e1
      cases hk : aget (nmeq t.ci) t.nameId name with
      | none => rw [hk] at e1; cases e1; exact ⟨h, rfl, .sortNo (.inl (h.find_none hk))⟩
      | some c1 =>
        rw [hk] at e1
        dsimp only at e1
        obtain ⟨j, hj, hc, _⟩ := h.find_some hk
        by_cases hn2 : name2 = []
        · rw [if_pos hn2] at e1
          obtain ⟨s1, s2, s3⟩ := sortInt_spec h hc (.inr ⟨rfl, h.cols0⟩) hl.1 hl.2 e1
          refine ⟨s1, s2, .sort hj (fun hc => absurd hn2 hc) ?_⟩
          rw [hn2, h.find_none h.find_nil]
          exact s3
        · rw [if_neg hn2] at e1
          cases hk2 : aget (nmeq t.ci) t.nameId name2 with
          | none => rw [hk2] at e1; cases e1; exact ⟨h, rfl, .sortNo (.inr ⟨hn2, h.find_none hk2⟩)⟩
          | some c2 =>
            rw [hk2] at e1
            obtain ⟨j2, hj2, hc2, _⟩ := h.find_some hk2
            obtain ⟨s1, s2, s3⟩ := sortInt_spec h hc (.inl ⟨j2, rfl, hc2⟩) hl.1 hl.2 e1
            refine ⟨s1, s2, .sort hj (fun _ => by rw [hj2]; simp) ?_⟩
            rw [hj2]
            exact s3
  | sortAt i p1 j p2 => exact ho.elim
  | order p =>
    obtain ⟨t1, e1, e2⟩ := Option.map_eq_some_iff.1 e
    cases e2
    exact order_spec h hl e1

theorem hist_sound {t t' : Tbl} {hs : List (Op × Out)} (h : Inv t) (hh : Hist t hs t') :
    Inv t' ∧ t'.ci = t.ci ∧ Grid.Run t.ci (view t) hs (view t') := by
  induction hh with
  | nil => exact ⟨h, rfl, .nil⟩
  | cons ho hl e _ ih =>
    obtain ⟨h1, h2, h3⟩ := step_sound h ho hl e
    obtain ⟨i1, i2, i3⟩ := ih h1
    rw [h2] at i2 i3
    exact ⟨i1, i2, .cons h3 i3⟩

/-- C112: after any history of operations on a new table (other than the uses excluded by `Ok`), whose random numbers do not
repeat, the results and the cells and names seen through the table are those of a grid of cells; columns found by name are those
the grid has under that name, and so are the cells read by name. -/
theorem table_partial {ci : Bool} {rs : List Nat} (hnd : rs.Nodup) (h0 : 0 ∉ rs) {hs : List (Op × Out)} {t : Tbl} (hh : Hist (create ci rs) hs t) :
    Grid.Run ci ⟨[], []⟩ hs (view t) ∧ (∀ name, colIdx t name = (view t).find ci name) ∧
      (∀ row name, cell t row name = (((view t).find ci name).bind fun j => (view t).cells[row]?.bind (·[j]?)).bind id) ∧
      t.rows.length = (view t).cells.length ∧ t.cols.length = (view t).names.length := by
  obtain ⟨h1, h2, h3⟩ := hist_sound (Inv.create ci hnd h0) hh
  have h2 : t.ci = ci := h2
  refine ⟨h3, ?_, ?_, by simp [view], by simp [view]⟩
  · intro name
    rw [abs_view, ← h2, h1.find]
    rfl
  · intro row name
    rw [abs_view, ← h2]
    unfold cell
    have hcells : (abs t).cells[row]? = t.rows[row]?.map fun r => t.cols.map (getInt t r) := List.getElem?_map
    rw [hcells]
    cases hr : t.rows[row]? with
    | none => cases (abs t).find t.ci name <;> rfl
    | some r =>
      dsimp only [Option.map_some]
      by_cases hn : name = []
      · rw [if_pos hn, hn, h1.find_none h1.find_nil]; rfl
      · rw [if_neg hn]
        cases hk : aget (nmeq t.ci) t.nameId name with
        | none => rw [h1.find_none hk]; rfl
        | some c =>
          obtain ⟨j, hj, hc, _⟩ := h1.find_some hk
          rw [hj, Option.bind_some, Option.bind_some, Option.bind_some, List.getElem?_map, hc]; rfl

/-- How many random numbers an operation can need. -/
def need : Op → Nat
  | .insCol .. => 1
  | .insRow _ => 1
  | .set .. => 1
  | .insDict _ kvs _ => kvs.length + 1
  | .setDict _ kvs _ => kvs.length
  | _ => 0

theorem insCol_total {t : Tbl} (h : Inv t) {i : Nat} {name : Bytes} (hn : 0 < t.rs.length) :
    ∃ r, insCol t i name = some r ∧ (i ≤ t.cols.length → (name ≠ [] → aget (nmeq t.ci) t.nameId name = none) →
      r.1.rs.length + 1 = t.rs.length) ∧ t.rs.length ≤ r.1.rs.length + 1 := by
  unfold insCol
  split
  · exact ⟨_, rfl, fun hc => by omega, by simp⟩
  · split
    · rename_i h2
      exact ⟨_, rfl, fun _ hc => by rw [hc h2.1] at h2; simp at h2, by simp⟩
    · cases hrs : t.rs with
      | nil => rw [hrs] at hn; simp at hn
      | cons x rs =>
        have : genId (fun id => (aget ideq t.idName id).isSome) (x :: rs) = some (x, rs) := by
          unfold genId
          rw [if_neg (by rw [h.unnamed (h.fresh x (by rw [hrs]; exact List.mem_cons_self)).2.1]; simp)]
        rw [this]
        exact ⟨_, rfl, fun _ _ => rfl, by simp⟩

theorem insRow_total {t : Tbl} (h : Inv t) {i : Nat} (hn : 0 < t.rs.length) : ∃ r, insRow t i = some r := by
  unfold insRow
  split
  · exact ⟨_, rfl⟩
  · cases hrs : t.rs with
    | nil => rw [hrs] at hn; simp at hn
    | cons x rs =>
      have : genId (fun id => (aget ideq t.data id).isSome) (x :: rs) = some (x, rs) := by
        unfold genId
        rw [if_neg (by rw [h.nodata (h.fresh x (by rw [hrs]; exact List.mem_cons_self)).2.2]; simp)]
      rw [this]
      exact ⟨_, rfl⟩

theorem set_total {t : Tbl} (h : Inv t) {row : Nat} {name : Bytes} {v : Option Bytes} {fl : Flags} (hn : 0 < t.rs.length) :
    ∃ r, set t row name v fl = some r ∧ t.rs.length ≤ r.1.rs.length + 1 := by
  unfold set
  split
  · exact ⟨_, rfl, by simp⟩
  · split
    · exact ⟨_, rfl, by simp⟩
    · split
      · exact ⟨_, rfl, by simp [setInt]⟩
      · split
        · exact ⟨_, rfl, by simp⟩
        · split
          · obtain ⟨⟨t1, o⟩, e, _, hl⟩ := insCol_total h (i := t.cols.length) (name := name) hn
            rw [e]
            cases o with
            | none => exact ⟨_, rfl, hl⟩
            | some c => exact ⟨_, rfl, hl⟩
          · exact ⟨_, rfl, by simp⟩

theorem dictLoop_total {fl : Flags} (kvs : List (Bytes × Bytes)) {t : Tbl} (h : Inv t) (row : List (Nat × Bytes)) (hn : kvs.length < t.rs.length) :
    ∃ r, dictLoop fl kvs t row = some r ∧ t.rs.length ≤ r.1.rs.length + kvs.length := by
  induction kvs generalizing t row with
  | nil => exact ⟨_, rfl, by simp⟩
  | cons p kvs ih =>
    obtain ⟨k, v⟩ := p
    rw [List.length_cons] at hn ⊢
    unfold dictLoop
    cases hk : aget (nmeq t.ci) t.nameId k with
    | some id =>
      obtain ⟨r, e, hl⟩ := ih h (aput ideq row id v) (by omega)
      exact ⟨r, e, by omega⟩
    | none =>
      dsimp only
      split
      · obtain ⟨r, e, hl⟩ := ih h row (by omega)
        exact ⟨r, e, by omega⟩
      · split
        · obtain ⟨⟨t1, o⟩, e, hl, _⟩ := insCol_total h (i := t.cols.length) (name := k) (by omega)
          obtain ⟨id, rfl, i1, _⟩ := insCol_spec h (Nat.le_refl _) (fun _ => hk) e
          have hl := hl (Nat.le_refl _) (fun _ => hk)
          dsimp only at hl
          rw [e]
          obtain ⟨r, e', hl'⟩ := ih i1 (aput ideq row id v) (by omega)
          exact ⟨r, e', by omega⟩
        · exact ⟨_, rfl, by simp⟩

theorem setDictLoop_total {row : Nat} {fl : Flags} (kvs : List (Bytes × Bytes)) {t : Tbl} (h : Inv t) (hn : kvs.length ≤ t.rs.length) :
    ∃ r, setDictLoop row fl kvs t = some r := by
  induction kvs generalizing t with
  | nil => exact ⟨_, rfl⟩
  | cons p kvs ih =>
    rw [List.length_cons] at hn
    unfold setDictLoop
    obtain ⟨⟨t1, b⟩, e, hl⟩ := set_total h (row := row) (name := p.1) (v := some p.2) (fl := fl) (by omega)
    rw [e]
    dsimp only at hl
    exact ih (set_spec h e).1 (by dsimp only; omega)

/-- C112: no operation gets stuck as long as there are random numbers. -/
theorem step_total {ci : Bool} {rs : List Nat} (hnd : rs.Nodup) (h0 : 0 ∉ rs) {hs : List (Op × Out)} {t : Tbl} (hh : Hist (create ci rs) hs t)
    (op : Op) (hl : Lawful op) (ho : ∀ i p j q, op ≠ .sortAt i p j q) (hn : need op ≤ t.rs.length) : ∃ r, step t op = some r := by
  have h := (hist_sound (Inv.create ci hnd h0) hh).1
  have hs : ∀ c1 c2 p1 p2, LawfulCmp p1 → (∀ p, p2 = some p → LawfulCmp p) → ∃ r, sortInt t c1 c2 p1 p2 = some r := by
    intro c1 c2 p1 p2 h1 h2
    obtain ⟨a, ha, _⟩ := Qsort.qsort_correct (cmp := rowCmp t c1 c2 p1 p2)
      (lawful_lex h1 h2 (fun a => (getInt t a c1).getD []) (fun a => (getInt t a c2).getD [])) t.rows.toArray
    exact ⟨_, by unfold sortInt; rw [ha]; rfl⟩
  cases op with
  | insCol i name => obtain ⟨r, e, _⟩ := insCol_total h (i := i) (name := name) hn; simp only [step, e, Option.map_some]; exact ⟨_, rfl⟩
  | insRow i => obtain ⟨r, e⟩ := insRow_total h (i := i) hn; simp only [step, e, Option.map_some]; exact ⟨_, rfl⟩
  | set row name v fl => obtain ⟨r, e, _⟩ := set_total h (row := row) (name := name) (v := v) (fl := fl) hn; simp only [step, e, Option.map_some]; exact ⟨_, rfl⟩
  | insDict i kvs fl =>
    simp only [need] at hn
    simp only [step]
    unfold insDict
    split
    · exact ⟨_, rfl⟩
    · split
      · obtain ⟨r, e⟩ := insRow_total h (i := i) (by omega)
        rw [e]; exact ⟨_, rfl⟩
      · obtain ⟨⟨t1, o⟩, e, hl⟩ := dictLoop_total (fl := fl) kvs h [] (by omega)
        rw [e, Option.bind_some]
        cases o with
        | none => exact ⟨_, rfl⟩
        | some row =>
          obtain ⟨d1, _⟩ := dictLoop_spec kvs h (fun c v hv => by cases hv) e
          dsimp only at hl ⊢
          obtain ⟨⟨t2, o⟩, e⟩ := insRow_total d1 (i := i) (by omega)
          rw [e]; exact ⟨_, rfl⟩
  | setDict row kvs fl =>
    simp only [step]
    unfold setDict
    split
    · exact ⟨_, rfl⟩
    · obtain ⟨t1, e⟩ := setDictLoop_total (row := row) (fl := fl) kvs h hn
      rw [e]; exact ⟨_, rfl⟩
  | sort name p1 name2 p2 =>
    simp only [step]
    unfold sort
    split
    · exact ⟨_, rfl⟩
    · split
      · exact ⟨_, rfl⟩
      · split
        · obtain ⟨r, e⟩ := hs _ _ p1 p2 hl.1 hl.2
          rw [e]; exact ⟨_, rfl⟩
        · split
          · exact ⟨_, rfl⟩
          · obtain ⟨r, e⟩ := hs _ _ p1 p2 hl.1 hl.2
            rw [e]; exact ⟨_, rfl⟩
  | sortAt i p j q => exact absurd rfl (ho i p j q)
  | order p =>
    obtain ⟨a, ha, _⟩ := Qsort.qsort_correct (cmp := fun a b => p ((aget ideq t.idName a).getD []) ((aget ideq t.idName b).getD []))
      ⟨fun a b => hl.swap _ _, fun a b c => hl.trans _ _ _⟩ t.cols.toArray
    simp only [step, order, ha, Option.map_some]; exact ⟨_, rfl⟩
  | _ => exact ⟨_, rfl⟩

/-! A concrete history: two rows and two columns, one of the rows from a dictionary. -/

private def byteCmp : Cmp := fun a b => (a.headD 0).toNat - (b.headD 0).toNat

private theorem byteCmp_lawful : LawfulCmp byteCmp := ⟨fun a b => by unfold byteCmp; omega, fun a b c => by unfold byteCmp; omega⟩

/-- Runs the model. -/
def exec : Tbl → List Op → Option (Tbl × List Out)
  | t, [] => some (t, [])
  | t, op :: ops => (step t op).bind fun r => (exec r.1 ops).map fun q => (q.1, r.2 :: q.2)

/-- Name `a` is given to a column, a row is put in, a dictionary with `b` adds a column, values are set by name. -/
private def ops1 : List Op :=
  [.insCol 0 [97], .insRow 0, .insDict 0 [([98], [120]), ([65], [121])] ⟨true, false⟩, .set 1 [97] (some [122]) ⟨false, false⟩]

private def tab1 : Tbl := ((exec (create true [5, 6, 7, 8]) ops1).map (·.1)).getD (create true [])

example : (exec (create true [5, 6, 7, 8]) ops1).map (fun q => (view q.1, q.2)) =
    some (⟨[some [97], some [98]], [[some [121], some [120]], [some [122], none]]⟩, [.bool true, .bool true, .bool true, .bool true]) := by
  decide +kernel

/-- A history that meets the hypotheses. -/
example : ∃ hs t, Hist (create true [5, 6, 7, 8]) hs t ∧ hs.length = 4 ∧ (view t).names = [some [97], some [98]] ∧
    (view t).cells = [[some [121], some [120]], [some [122], none]] := by
  have h : ∀ t op t' out, Ok t.ci (view t) op → Lawful op → step t op = some (t', out) → ∀ hs t'', Hist t' hs t'' →
    Hist t ((op, out) :: hs) t'' := fun _ _ _ _ h1 h2 h3 _ _ h4 => .cons h1 h2 h3 h4
  exact ⟨_, _, h _ (.insCol 0 [97]) _ _ trivial trivial rfl _ _ (h _ (.insRow 0) _ _ trivial trivial rfl _ _
    (h _ (.insDict 0 [([98], [120]), ([65], [121])] ⟨true, false⟩) _ _ trivial trivial rfl _ _
    (h _ (.set 1 [97] (some [122]) ⟨false, false⟩) _ _ trivial trivial rfl _ _ .nil))), rfl, by decide +kernel, by decide +kernel⟩

/-- Sorting, removing and naming in the table above. -/
example : (exec tab1 [.rmRow 0, .rmEmptyCols]).map (fun q => (view q.1, q.2)) = some (⟨[some [97]], [[some [122]]]⟩, [.unit, .count 1]) := by
  decide +kernel

example : (step tab1 (.sort [98] byteCmp [] none)).map (fun q => (view q.1).cells) = some [[some [122], none], [some [121], some [120]]] := by
  decide +kernel

/-! Where the code does something else. -/

/-- A renamed column is still found under its old name. -/
theorem rename_fails : ∃ t, (exec (create false [1]) [.insCol 0 [97], .setName 0 [98]]).map (·.1) = some t ∧
    (view t).names = [some [98]] ∧ colIdx t [97] = some 0 ∧ (view t).find false [97] = none := by
  exact ⟨_, rfl, by decide +kernel, by decide +kernel, by decide +kernel⟩

/-- So is a column whose name was taken away; the name cannot be used again. -/
theorem clear_fails : ∃ t, (exec (create false [1, 2]) [.insCol 0 [97], .setName 0 []]).map (·.1) = some t ∧
    (view t).names = [none] ∧ colIdx t [97] = some 0 ∧ (step t (.insCol 1 [97])).map (·.2) = some (.bool false) := by
  exact ⟨_, rfl, by decide +kernel, by decide +kernel, by decide +kernel⟩

/-- After a renamed column was removed, setting a value under its old name succeeds and the value is nowhere. -/
theorem removed_fails : ∃ t, (exec (create false [1, 2]) [.insRow 0, .insCol 0 [97], .setName 0 [98], .rmColAt 0,
      .set 0 [97] (some [120]) ⟨true, false⟩]) = some (t, [.bool true, .bool true, .bool true, .unit, .bool true]) ∧ (view t).cells = [[]] := by
  exact ⟨_, rfl, by decide +kernel⟩

/-- Two columns can be given one name, though the description says that this fails. -/
theorem take_fails : ∃ t, (exec (create false [1, 2]) [.insCol 0 [97], .insCol 1 [98], .setName 1 [97]]) =
      some (t, [.bool true, .bool true, .bool true]) ∧ (view t).names = [some [97], some [97]] ∧ colIdx t [97] = some 1 := by
  exact ⟨_, rfl, by decide +kernel, by decide +kernel⟩

/-- Setting values from a dictionary in a row that does not exist succeeds and does nothing. -/
theorem dict_fails : ∃ t, (exec (create false [1, 2]) [.insCol 0 [97], .setDict 3 [([97], [120])] ⟨false, false⟩]) =
      some (t, [.bool true, .bool true]) ∧ (view t).cells = [] := by
  exact ⟨_, rfl, by decide +kernel⟩

/-- Sorting by column number never does anything if either column exists. -/
theorem sortAt_fails (t : Tbl) (i j : Nat) (p1 : Cmp) (p2 : Option Cmp) (h : i < t.cols.length ∨ j < t.cols.length) : sortAt t i p1 j p2 = some t := by
  unfold sortAt
  rw [if_pos (by omega)]

/-- If a random number repeats, two columns without names are one: the identifier is not seen to be in use. -/
theorem id_fails : ∃ t, (exec (create false [3, 4, 4]) [.insRow 0, .insCol 0 [], .insCol 1 [], .setAt 0 0 (some [120])]).map (·.1) = some t ∧
    (view t).cells = [[some [120], some [120]]] := by
  exact ⟨_, rfl, by decide +kernel⟩

/-- The same for two empty rows. -/
theorem rowid_fails : ∃ t, (exec (create false [3, 4, 4]) [.insCol 0 [], .insRow 0, .insRow 0, .setAt 0 0 (some [120])]).map (·.1) = some t ∧
    (view t).cells = [[some [120]], [some [120]]] := by
  exact ⟨_, rfl, by decide +kernel⟩

/-- An identifier that is zero is used even if it is in use. -/
theorem zero_fails : ∃ t, (exec (create false [0, 0]) [.insCol 0 [97], .insCol 1 [98]]).map (·.1) = some t ∧
    (view t).names = [some [98], some [98]] := by
  exact ⟨_, rfl, by decide +kernel⟩

end Verif.Table
