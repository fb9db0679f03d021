import Verif.Table.Cols
import Verif.Qsort.Props

/-! Rows, cells and sorting. -/

namespace Verif.Table

theorem dup_aput {β : Type} {l : List (Nat × β)} (h : ∀ p ∈ l, aget ideq l p.1 = some p.2) (k : Nat) (v : β) :
    ∀ p ∈ aput ideq l k v, aget ideq (aput ideq l k v) p.1 = some p.2 := by
  intro p hp
  rw [iget_iput]
  unfold aput at hp
  split at hp
  · obtain ⟨q, hq, rfl⟩ := List.mem_map.1 hp
    by_cases hk : ideq q.1 k = true
    · rw [if_pos hk, if_pos (ideq_iff.1 hk).symm]
    · rw [if_neg hk, if_neg (fun hc => hk (ideq_iff.2 hc.symm))]; exact h q hq
  · rename_i hn
    rcases List.mem_append.1 hp with hp | hp
    · rw [if_neg (fun hc => hn (List.any_eq_true.2 ⟨p, hp, ideq_iff.2 hc.symm⟩))]; exact h p hp
    · rw [List.mem_singleton.1 hp, if_pos rfl]

theorem dup_adel {β : Type} {l : List (Nat × β)} (h : ∀ p ∈ l, aget ideq l p.1 = some p.2) (k : Nat) :
    ∀ p ∈ adel ideq l k, aget ideq (adel ideq l k) p.1 = some p.2 := by
  intro p hp
  unfold adel at hp
  rw [List.mem_filter] at hp
  rw [iget_idel, if_neg (by rintro rfl; simp [ideq] at hp)]
  exact h p hp.1

theorem mem_aput {β : Type} {l : List (Nat × β)} {k : Nat} {v : β} {p : Nat × β} (hp : p ∈ aput ideq l k v) : p ∈ l ∨ p = (k, v) := by
  unfold aput at hp
  split at hp
  · obtain ⟨q, hq, rfl⟩ := List.mem_map.1 hp
    by_cases hk : ideq q.1 k = true
    · rw [if_pos hk, ideq_iff.1 hk]; exact .inr rfl
    · rw [if_neg hk]; exact .inl hq
  · rcases List.mem_append.1 hp with hp | hp
    · exact .inl hp
    · exact .inr (List.mem_singleton.1 hp)

theorem aget_mem {β : Type} {l : List (Nat × β)} {k : Nat} {v : β} (h : aget ideq l k = some v) : (k, v) ∈ l := by
  unfold aget at h
  obtain ⟨p, hp, rfl⟩ := Option.map_eq_some_iff.1 h
  have := List.find?_some hp
  rw [← ideq_iff.1 this]
  exact List.mem_of_find?_eq_some hp

/-- The cells of one row change. -/
theorem Inv.putRow {t : Tbl} (h : Inv t) {r : Nat} (hr : r ∈ t.rows) {d : List (Nat × Bytes)} (hd : ∀ c v, aget ideq d c = some v → c ∈ t.cols) :
    Inv { t with data := aput ideq t.data r d } := by
  refine ⟨h.ndc, h.ndr, h.names, h.live, ?_, ?_, dup_aput h.dup r d, h.ndf, h.fresh, h.cols0⟩
  · intro r' d'
    dsimp only
    rw [iget_iput]
    by_cases hc : r = r'
    · rw [if_pos hc]; intro _; exact hc ▸ hr
    · rw [if_neg hc]; exact h.dataR r' d'
  · intro p hp c v hv
    rcases mem_aput hp with hp | rfl
    · exact h.dataC p hp c v hv
    · exact hd c v hv

theorem getInt_putRow (t : Tbl) (r r' c : Nat) (d : List (Nat × Bytes)) :
    getInt { t with data := aput ideq t.data r d } r' c = if r = r' then aget ideq d c else getInt t r' c := by
  unfold getInt
  dsimp only
  rw [iget_iput]
  by_cases hc : r = r'
  · rw [if_pos hc, if_pos hc]; rfl
  · rw [if_neg hc, if_neg hc]

theorem setInt_spec {t : Tbl} (h : Inv t) {row col r c : Nat} (hr : t.rows[row]? = some r) (hc : t.cols[col]? = some c) (v : Option Bytes) :
    Inv (setInt t r c v) ∧ (setInt t r c v).ci = t.ci ∧ abs (setInt t r c v) = (abs t).put row col v := by
  have hnew : ∀ c', aget ideq (setRow ((aget ideq t.data r).getD []) c v) c' = if c = c' then v else getInt t r c' := by
    intro c'
    have : aget ideq ((aget ideq t.data r).getD []) c' = getInt t r c' := by
      unfold getInt
      cases aget ideq t.data r <;> rfl
    cases v with
    | none => unfold setRow; rw [iget_idel, this]
    | some v => unfold setRow; rw [iget_iput, this]
  refine ⟨?_, rfl, ?_⟩
  · refine h.putRow (List.mem_of_getElem? hr) ?_
    intro c' v' hv
    rw [hnew] at hv
    by_cases hcc : c = c'
    · exact hcc ▸ List.mem_of_getElem? hc
    · rw [if_neg hcc] at hv; exact (h.getInt_col hv).1
  · have hg : ∀ r' c', getInt (setInt t r c v) r' c' = if r = r' then (if c = c' then v else getInt t r c') else getInt t r' c' := by
      intro r' c'
      unfold setInt
      rw [getInt_putRow, hnew]
    unfold Grid.put
    show (⟨t.cols.map (aget ideq t.idName), t.rows.map fun r' => t.cols.map (getInt (setInt t r c v) r')⟩ : Grid) = _
    congr 1
    rw [map_set h.ndr hr (fun r' => t.cols.map (getInt t r')) _ (fun y _ hy => by
      refine List.map_congr_left fun c' _ => ?_
      rw [hg, if_neg (Ne.symm hy)])]
    have hcell : (abs t).cells = t.rows.map fun r' => t.cols.map (getInt t r') := rfl
    rw [hcell]
    have hrow : (t.cols.map (getInt (setInt t r c v) r)) = (t.cols.map (getInt t r)).set col v := by
      rw [map_set h.ndc hc (getInt t r) _ (fun y _ hy => by rw [hg, if_pos rfl, if_neg (Ne.symm hy)]), hg, if_pos rfl, if_pos rfl]
    rw [hrow]
    apply List.ext_getElem?
    intro k
    rw [List.getElem?_modify, List.getElem?_set, List.length_map]
    by_cases hk : row = k
    · subst hk
      rw [if_pos rfl, if_pos (List.getElem?_eq_some_iff.1 hr).1, List.getElem?_map, hr]
      simp
    · simp [hk]

theorem set_spec {t t' : Tbl} {row : Nat} {name : Bytes} {v : Option Bytes} {fl : Flags} {b : Bool} (h : Inv t)
    (e : set t row name v fl = some (t', b)) :
    Inv t' ∧ t'.ci = t.ci ∧ t'.rows = t.rows ∧ (abs t').cells.length = (abs t).cells.length ∧ (abs t).setCell t.ci row name v fl = (abs t', b) := by
  unfold set at e
  unfold Grid.setCell
  cases hr : t.rows[row]? with
  | none =>
    rw [hr] at e; cases e
    rw [List.getElem?_eq_none_iff] at hr
    rw [if_pos (.inl (by rw [abs_nrows]; exact hr))]
    exact ⟨h, rfl, rfl, rfl, rfl⟩
  | some r =>
    rw [hr] at e
    dsimp only at e
    have hlt := (List.getElem?_eq_some_iff.1 hr).1
    by_cases hn : name = []
    · rw [if_pos hn] at e; cases e
      rw [if_pos (.inr hn)]
      exact ⟨h, rfl, rfl, rfl, rfl⟩
    · rw [if_neg hn] at e
      rw [if_neg (by rintro (hc | hc); · rw [abs_nrows] at hc; omega
                     · exact hn hc)]
      cases hk : aget (nmeq t.ci) t.nameId name with
      | some c =>
        rw [hk] at e
        obtain ⟨j, hj, hc, _⟩ := h.find_some hk
        cases e
        obtain ⟨h1, h2, h3⟩ := setInt_spec h hr hc v
        rw [hj]
        exact ⟨h1, h2, rfl, by rw [abs_nrows, abs_nrows]; rfl, by rw [h3]⟩
      | none =>
        rw [hk] at e
        rw [h.find_none hk]
        dsimp only at e ⊢
        by_cases hi : fl.ignore = true
        · rw [if_pos hi] at e; cases e
          rw [if_pos hi]
          exact ⟨h, rfl, rfl, rfl, rfl⟩
        · rw [if_neg hi] at e ⊢
          by_cases ha : fl.add = true
          · rw [if_pos ha] at e ⊢
            obtain ⟨⟨t1, o⟩, hins, e⟩ := Option.map_eq_some_iff.1 e
            obtain ⟨id, rfl, i1, i2, i3, i4, i5, i6, i7⟩ := insCol_spec h (Nat.le_refl _) (fun _ => hk) hins
            dsimp only at e
            cases e
            rw [List.take_length, List.drop_length] at i4
            obtain ⟨h1, h2, h3⟩ := setInt_spec i1 (by rw [i6]; exact hr) (col := t.cols.length) (c := id)
              (by rw [i4, List.getElem?_append_right (Nat.le_refl _), Nat.sub_self]; rfl) v
            refine ⟨h1, h2.trans i2, i6, ?_, ?_⟩
            · rw [abs_nrows, abs_nrows]; show t1.rows.length = _; rw [i6]
            · rw [h3, i3, abs_ncols]
          · rw [if_neg ha] at e ⊢; cases e
            exact ⟨h, rfl, rfl, rfl, rfl⟩

theorem setDictLoop_spec {row : Nat} {fl : Flags} (kvs : List (Bytes × Bytes)) {t t' : Tbl} (h : Inv t)
    (e : setDictLoop row fl kvs t = some t') :
    Inv t' ∧ t'.ci = t.ci ∧ abs t' = kvs.foldl (fun g p => (g.setCell t.ci row p.1 (some p.2) fl).1) (abs t) := by
  induction kvs generalizing t with
  | nil => cases e; exact ⟨h, rfl, rfl⟩
  | cons p kvs ih =>
    unfold setDictLoop at e
    obtain ⟨⟨t1, b⟩, h1, e⟩ := Option.bind_eq_some_iff.1 e
    obtain ⟨s1, s2, _, _, s5⟩ := set_spec h h1
    obtain ⟨i1, i2, i3⟩ := ih s1 e
    refine ⟨i1, i2.trans s2, ?_⟩
    rw [i3, List.foldl_cons, s5, s2]

theorem insRow_spec {t t' : Tbl} {i : Nat} {o : Option Nat} (h : Inv t) (hi : i ≤ t.rows.length) (e : insRow t i = some (t', o)) :
    ∃ id, o = some id ∧ Inv t' ∧ t'.ci = t.ci ∧ t'.cols = t.cols ∧ t'.idName = t.idName ∧ id ∉ t.rows ∧ t'.data = t.data ∧
      t'.rows = t.rows.take i ++ id :: t.rows.drop i ∧
      abs t' = (abs t).addRow i ((abs t).names.map fun _ => none) := by
  unfold insRow at e
  rw [if_neg (by omega)] at e
  obtain ⟨⟨id, rs⟩, hg, e⟩ := Option.map_eq_some_iff.1 e
  have hrs := genId_fresh (fun x hx => by rw [h.nodata (h.fresh x hx).2.2]; rfl) hg
  have hf := h.fresh id (by rw [hrs]; exact List.mem_cons_self)
  have hnd := h.ndf
  rw [hrs, List.nodup_cons] at hnd
  dsimp only at e
  cases e
  refine ⟨id, rfl, ⟨h.ndc, nodup_ins h.ndr hf.2.2, h.names, h.live, ?_, h.dataC, h.dup, hnd.2, ?_, h.cols0⟩, rfl, rfl, rfl, hf.2.2, rfl, rfl, ?_⟩
  · intro r d hd
    exact mem_ins.2 (.inr (h.dataR r d hd))
  · intro x hx
    have hx' : x ∈ t.rs := by rw [hrs]; exact List.mem_cons_of_mem _ hx
    refine ⟨(h.fresh x hx').1, (h.fresh x hx').2.1, ?_⟩
    rw [mem_ins]
    rintro (rfl | hc)
    · exact hnd.1 hx
    · exact (h.fresh x hx').2.2 hc
  · unfold abs Grid.addRow
    dsimp only
    congr 1
    rw [List.map_append, List.map_cons, ← List.map_take, ← List.map_drop]
    have : ∀ r, getInt { t with rs := rs, rows := t.rows.take i ++ id :: t.rows.drop i } r = getInt t r := fun _ => rfl
    simp only [this]
    congr 2
    rw [List.map_map]
    refine List.map_congr_left fun c _ => ?_
    unfold getInt
    rw [h.nodata hf.2.2]; rfl

theorem dictLoop_spec {fl : Flags} (kvs : List (Bytes × Bytes)) {t t' : Tbl} {row : List (Nat × Bytes)} {o : Option (List (Nat × Bytes))} (h : Inv t)
    (hrow : ∀ c v, aget ideq row c = some v → c ∈ t.cols) (e : dictLoop fl kvs t row = some (t', o)) :
    Inv t' ∧ t'.ci = t.ci ∧ t'.rows = t.rows ∧
      Grid.fill t.ci fl kvs (abs t) (t.cols.map (aget ideq row)) = (abs t', o.map fun row' => t'.cols.map (aget ideq row')) ∧
      (∀ row', o = some row' → ∀ c v, aget ideq row' c = some v → c ∈ t'.cols) ∧
      (fl.add = false → t' = t) ∧ (o = none → fl.add = false) := by
  induction kvs generalizing t row with
  | nil =>
    unfold dictLoop at e; cases e
    exact ⟨h, rfl, rfl, rfl, fun row' hr => by cases hr; exact hrow, fun _ => rfl, fun hc => by cases hc⟩
  | cons p kvs ih =>
    obtain ⟨k, v⟩ := p
    unfold dictLoop at e
    unfold Grid.fill
    cases hk : aget (nmeq t.ci) t.nameId k with
    | some id =>
      rw [hk] at e
      obtain ⟨j, hj, hc, _⟩ := h.find_some hk
      rw [hj]
      dsimp only at e ⊢
      have := ih h (row := aput ideq row id v) (by
        intro c v' hv
        rw [iget_iput] at hv
        by_cases hcc : id = c
        · exact hcc ▸ List.mem_of_getElem? hc
        · rw [if_neg hcc] at hv; exact hrow c v' hv) e
      rw [map_set h.ndc hc (aget ideq row) _ (fun y _ hy => by rw [iget_iput, if_neg (Ne.symm hy)]), iget_iput, if_pos rfl] at this
      exact this
    | none =>
      rw [hk] at e
      rw [h.find_none hk]
      dsimp only at e ⊢
      by_cases hi : fl.ignore = true
      · rw [if_pos hi] at e ⊢
        exact ih h hrow e
      · rw [if_neg hi] at e ⊢
        by_cases ha : fl.add = true
        · rw [if_pos ha] at e ⊢
          obtain ⟨⟨t1, o1⟩, hins, e⟩ := Option.bind_eq_some_iff.1 e
          obtain ⟨id, rfl, i1, i2, i3, i4, i5, i6, i7⟩ := insCol_spec h (Nat.le_refl _) (fun _ => hk) hins
          rw [List.take_length, List.drop_length] at i4
          dsimp only at e
          have := ih i1 (row := aput ideq row id v) (by
            intro c v' hv
            rw [i4, List.mem_append]
            rw [iget_iput] at hv
            by_cases hcc : id = c
            · exact .inr (by rw [hcc]; exact List.mem_singleton_self _)
            · rw [if_neg hcc] at hv; exact .inl (hrow c v' hv)) e
          have hm : t1.cols.map (aget ideq (aput ideq row id v)) = t.cols.map (aget ideq row) ++ [some v] := by
            rw [i4, List.map_append]
            congr 1
            · refine List.map_congr_left fun y hy => ?_
              rw [iget_iput, if_neg (by rintro rfl; exact i5 hy)]
            · rw [List.map_cons, iget_iput, if_pos rfl]; rfl
          rw [hm, i2, i3] at this
          rw [abs_ncols]
          obtain ⟨j1, j2, j3, j4, j5, j6, j7⟩ := this
          exact ⟨j1, j2, j3.trans i6, j4, j5, (fun hc => by rw [ha] at hc; cases hc), j7⟩
        · rw [if_neg ha] at e ⊢; cases e
          exact ⟨h, rfl, rfl, rfl, (fun row' hr => by cases hr), fun _ => rfl, fun _ => by simpa using ha⟩

theorem rmRow_spec {t : Tbl} (h : Inv t) (i : Nat) :
    Inv (rmRow t i) ∧ (rmRow t i).ci = t.ci ∧ abs (rmRow t i) = ⟨(abs t).names, (abs t).cells.take i ++ (abs t).cells.drop (i + 1)⟩ := by
  unfold rmRow
  cases hr : t.rows[i]? with
  | none =>
    rw [List.getElem?_eq_none_iff] at hr
    refine ⟨h, rfl, ?_⟩
    show abs t = _
    rw [List.take_of_length_le (by rw [abs_nrows]; exact hr), List.drop_of_length_le (by rw [abs_nrows]; omega), List.append_nil]
  | some id =>
    dsimp only
    have hmem : ∀ y, y ∈ t.rows.take i ++ t.rows.drop (i + 1) ↔ y ∈ t.rows ∧ y ≠ id := fun y => mem_split h.ndr hr
    refine ⟨⟨h.ndc, ?_, h.names, h.live, ?_, ?_, dup_adel h.dup id, h.ndf, ?_, h.cols0⟩, rfl, ?_⟩
    · dsimp only
      rw [← filter_ne h.ndr hr]
      exact List.Nodup.sublist List.filter_sublist h.ndr
    · intro r d
      dsimp only
      rw [iget_idel, hmem]
      by_cases hc : id = r
      · rw [if_pos hc]; intro hd; cases hd
      · rw [if_neg hc]; intro hd; exact ⟨h.dataR r d hd, Ne.symm hc⟩
    · intro p hp c v hv
      exact h.dataC p (List.mem_filter.1 hp).1 c v hv
    · intro x hx
      exact ⟨(h.fresh x hx).1, (h.fresh x hx).2.1, fun hc => (h.fresh x hx).2.2 ((hmem x).1 hc).1⟩
    · unfold abs
      dsimp only
      congr 1
      rw [← List.map_take, ← List.map_drop, ← List.map_append]
      refine List.map_congr_left fun r hr' => List.map_congr_left fun c _ => ?_
      unfold getInt
      dsimp only
      rw [iget_idel, if_neg (Ne.symm ((hmem r).1 hr').2)]

/-- The row holds a value somewhere. -/
def full (t : Tbl) (r : Nat) : Bool := t.cols.any fun c => (getInt t r c).isSome

theorem full_iff {t : Tbl} (h : Inv t) (r : Nat) : (aget ideq t.data r).all (fun d => d.isEmpty) = !full t r := by
  rw [Bool.eq_iff_iff, Bool.not_eq_true', ← Bool.not_eq_true]
  unfold full
  rw [List.any_eq_true]
  cases hd : aget ideq t.data r with
  | none => simp [getInt, hd]
  | some d =>
    simp only [Option.all_some, List.isEmpty_iff]
    constructor
    · rintro rfl ⟨c, _, hv⟩
      unfold getInt at hv
      rw [hd] at hv
      simp [aget_nil] at hv
    · intro hn
      rw [← aget_all_none ideq_eqv]
      intro c
      cases hv : aget ideq d c with
      | none => rfl
      | some v =>
        have : getInt t r c = some v := by unfold getInt; rw [hd]; exact hv
        exact absurd ⟨c, (h.getInt_col this).1, by rw [this]; rfl⟩ hn

theorem rmEmptyRowsLoop_spec (i : Nat) {t t' : Tbl} {n n' : Nat} (h : Inv t) (hi : i ≤ t.rows.length) (e : rmEmptyRowsLoop i t n = (t', n')) :
    Inv t' ∧ t'.ci = t.ci ∧ t'.cols = t.cols ∧ t'.idName = t.idName ∧
      t'.rows = (t.rows.take i).filter (full t) ++ t.rows.drop i ∧ n' = n + (t.rows.take i).countP (fun r => !full t r) ∧
      ∀ r ∈ t'.rows, ∀ c, getInt t' r c = getInt t r c := by
  induction i generalizing t n with
  | zero =>
    unfold rmEmptyRowsLoop at e; cases e
    exact ⟨h, rfl, rfl, rfl, by simp, by simp, fun _ _ _ => rfl⟩
  | succ i ih =>
    have hj : t.rows[i]? = some t.rows[i] := List.getElem?_eq_getElem hi
    unfold rmEmptyRowsLoop at e
    rw [hj] at e
    dsimp only at e
    rw [full_iff h] at e
    have htake : t.rows.take (i + 1) = t.rows.take i ++ [t.rows[i]] := by rw [List.take_succ, hj]; rfl
    have hdrop : t.rows.drop i = t.rows[i] :: t.rows.drop (i + 1) := List.drop_eq_getElem_cons hi
    by_cases hh : full t t.rows[i] = true
    · rw [if_neg (by rw [hh]; simp)] at e
      obtain ⟨h1, h2, h3, h4, h5, h6, h7⟩ := ih h (by omega) e
      refine ⟨h1, h2, h3, h4, ?_, ?_, h7⟩
      · rw [h5, htake, List.filter_append, hdrop, List.filter_cons, if_pos hh]
        simp
      · rw [h6, htake, List.countP_append, List.countP_cons, hh]
        simp
    · rw [if_pos (by simpa using hh)] at e
      have hrm : { t with rows := t.rows.take i ++ t.rows.drop (i + 1), data := adel ideq t.data t.rows[i] } = rmRow t i := by
        unfold rmRow; rw [hj]
      obtain ⟨d1, d2, _⟩ := rmRow_spec h i
      rw [← hrm] at d1 d2
      have hl : (t.rows.take i).length = i := by rw [List.length_take]; omega
      obtain ⟨h1, h2, h3, h4, h5, h6, h7⟩ := ih d1 (by
        show i ≤ (t.rows.take i ++ t.rows.drop (i + 1)).length; rw [List.length_append, hl]; omega) e
      dsimp only at h2 h3 h4 h5 h6
      have hget : ∀ r, r ≠ t.rows[i] → ∀ c, getInt { t with rows := t.rows.take i ++ t.rows.drop (i + 1), data := adel ideq t.data t.rows[i] } r c = getInt t r c := by
        intro r hr c
        unfold getInt
        dsimp only
        rw [iget_idel, if_neg (Ne.symm hr)]
      have hne : ∀ r ∈ t.rows.take i, r ≠ t.rows[i] := fun r hr => ((mem_split h.ndr hj).1 (List.mem_append_left _ hr)).2
      have hfull : ∀ r ∈ t.rows.take i, full { t with rows := t.rows.take i ++ t.rows.drop (i + 1), data := adel ideq t.data t.rows[i] } r = full t r := by
        intro r hr
        unfold full
        dsimp only
        congr 1
        funext c
        rw [hget r (hne r hr)]
      rw [List.take_append_of_le_length (by omega), List.take_of_length_le (by omega : (t.rows.take i).length ≤ i)] at h5 h6
      rw [List.drop_append_of_le_length (by omega), List.drop_of_length_le (by omega : (t.rows.take i).length ≤ i), List.nil_append,
        List.filter_congr hfull] at h5
      rw [List.countP_congr (q := fun r => !full t r) (fun r hr => by rw [hfull r hr])] at h6
      refine ⟨h1, h2, h3, h4, ?_, ?_, ?_⟩
      · rw [h5, htake, List.filter_append, List.filter_cons, if_neg hh]
        simp
      · rw [h6, htake, List.countP_append, List.countP_cons]
        simp [hh]
        omega
      · intro r hr c
        rw [h7 r hr c]
        apply hget
        have : r ∈ t.rows.take i ++ t.rows.drop (i + 1) := by
          rw [h5] at hr
          rw [List.mem_append] at *
          rcases hr with hr | hr
          · exact .inl (List.mem_filter.1 hr).1
          · exact .inr hr
        exact ((mem_split h.ndr hj).1 this).2

theorem rmEmptyRows_spec {t : Tbl} (h : Inv t) :
    Inv (rmEmptyRows t).1 ∧ (rmEmptyRows t).1.ci = t.ci ∧ (rmEmptyRows t).2 = (abs t).cells.countP (fun r => r.all Option.isNone) ∧
      abs (rmEmptyRows t).1 = ⟨(abs t).names, (abs t).cells.filter fun r => r.any Option.isSome⟩ := by
  obtain ⟨t', n', e⟩ : ∃ t' n', rmEmptyRowsLoop t.rows.length t 0 = (t', n') := ⟨_, _, rfl⟩
  obtain ⟨h1, h2, h3, h4, h5, h6, h7⟩ := rmEmptyRowsLoop_spec t.rows.length h (Nat.le_refl _) e
  unfold rmEmptyRows
  rw [e]
  rw [List.take_length, List.drop_length, List.append_nil] at h5
  rw [List.take_length, Nat.zero_add] at h6
  refine ⟨h1, h2, ?_, ?_⟩
  · rw [h6]
    unfold abs
    dsimp only
    rw [List.countP_map]
    congr 1
    funext r
    dsimp only [Function.comp]
    unfold full
    rw [List.all_map, List.not_any_eq_all_not]
    congr 1
    funext c
    simp
  · unfold abs
    dsimp only
    congr 1
    · rw [h3, h4]
    · rw [List.filter_map, h3, List.map_congr_left (fun r hr => List.map_congr_left fun c _ => h7 r hr c), h5]
      congr 2
      funext r
      dsimp only [Function.comp]
      rw [List.any_map]; rfl

/-! Sorting. -/

theorem lawful_lex {α : Type} {p1 : Cmp} {p2 : Option Cmp} (h1 : LawfulCmp p1) (h2 : ∀ p, p2 = some p → LawfulCmp p) (f g : α → Bytes) :
    LawfulCmp fun a b => second (p1 (f a) (f b)) (g a) (g b) p2 := by
  cases p2 with
  | none => exact ⟨fun a b => h1.swap _ _, fun a b c => h1.trans _ _ _⟩
  | some p =>
    have h2 := h2 p rfl
    constructor <;> simp only [second]
    · intro a b
      have e := h1.eq_swap (f a) (f b)
      have s := h1.swap (f a) (f b)
      by_cases hz : p1 (f a) (f b) = 0
      · rw [if_pos hz, if_pos (e.1 hz)]; exact h2.swap _ _
      · rw [if_neg hz, if_neg (fun hc => hz (e.2 hc))]; exact s
    · intro a b c
      by_cases hz : p1 (f a) (f b) = 0
      · rw [if_pos hz]
        by_cases hz' : p1 (f b) (f c) = 0
        · rw [if_pos hz', if_pos (h1.eq_trans hz hz')]; exact h2.trans _ _ _
        · rw [if_neg hz']
          intro _ hb
          have := h1.lt_of_le_of_lt (a := f a) (by omega) (by omega : p1 (f b) (f c) < 0)
          rw [if_neg (by omega)]; omega
      · rw [if_neg hz]
        intro ha hb
        have hbc : p1 (f b) (f c) ≤ 0 := by
          by_cases hz' : p1 (f b) (f c) = 0
          · omega
          · rw [if_neg hz'] at hb; exact hb
        have := h1.lt_of_lt_of_le (by omega : p1 (f a) (f b) < 0) hbc
        rw [if_neg (by omega)]; omega

theorem sortInt_spec {t t' : Tbl} (h : Inv t) {c1 c2 : Nat} {p1 : Cmp} {p2 : Option Cmp} {j1 : Nat} {j2 : Option Nat}
    (hj1 : t.cols[j1]? = some c1) (hj2 : (∃ j, j2 = some j ∧ t.cols[j]? = some c2) ∨ (j2 = none ∧ c2 ∉ t.cols))
    (hp1 : LawfulCmp p1) (hp2 : ∀ p, p2 = some p → LawfulCmp p) (e : sortInt t c1 c2 p1 p2 = some t') :
    Inv t' ∧ t'.ci = t.ci ∧ Grid.Sorted p1 p2 (some j1) j2 (abs t) (abs t') := by
  unfold sortInt at e
  obtain ⟨a, ha, rfl⟩ := Option.map_eq_some_iff.1 e
  obtain ⟨a', ha', hperm, hsort⟩ := Qsort.qsort_correct (cmp := rowCmp t c1 c2 p1 p2)
    (lawful_lex hp1 hp2 (fun a => (getInt t a c1).getD []) (fun a => (getInt t a c2).getD [])) t.rows.toArray
  have hae : a' = a := Option.some.inj (ha'.symm.trans ha)
  subst hae
  rw [List.toList_toArray] at hperm
  refine ⟨⟨h.ndc, hperm.nodup_iff.2 h.ndr, h.names, h.live, fun r d hd => hperm.mem_iff.2 (h.dataR r d hd), h.dataC, h.dup, h.ndf,
    fun x hx => ⟨(h.fresh x hx).1, (h.fresh x hx).2.1, fun hc => (h.fresh x hx).2.2 (hperm.mem_iff.1 hc)⟩, h.cols0⟩, rfl, rfl, ?_, ?_⟩
  · exact hperm.map _
  · unfold abs
    dsimp only
    rw [List.pairwise_map]
    refine hsort.imp fun {x y} hxy => ?_
    have k1 : ∀ r, Grid.key (some j1) (t.cols.map (getInt t r)) = (getInt t r c1).getD [] := by
      intro r
      unfold Grid.key
      rw [Option.bind_some, List.getElem?_map, hj1]; rfl
    have k2 : ∀ r, Grid.key j2 (t.cols.map (getInt t r)) = (getInt t r c2).getD [] := by
      intro r
      unfold Grid.key
      rcases hj2 with ⟨j, rfl, hj⟩ | ⟨rfl, hc⟩
      · rw [Option.bind_some, List.getElem?_map, hj]; rfl
      · rw [h.nocell hc]; rfl
    unfold Grid.Le
    have hget : ∀ r, getInt { t with rows := a'.toList } r = getInt t r := fun _ => rfl
    simp only [hget]
    rw [k1, k1, k2, k2]
    unfold rowCmp at hxy
    cases p2 with
    | none =>
      simp only [second] at hxy
      by_cases hz : p1 ((getInt t x c1).getD []) ((getInt t y c1).getD []) = 0
      · exact .inr ⟨hz, fun p hp => by cases hp⟩
      · exact .inl (by omega)
    | some p =>
      simp only [second] at hxy
      by_cases hz : p1 ((getInt t x c1).getD []) ((getInt t y c1).getD []) = 0
      · rw [if_pos hz] at hxy
        exact .inr ⟨hz, fun p' hp => by cases hp; exact hxy⟩
      · rw [if_neg hz] at hxy
        exact .inl (by omega)

theorem order_spec {t t' : Tbl} (h : Inv t) {p : Cmp} (hp : LawfulCmp p) (e : order t p = some t') :
    Inv t' ∧ t'.ci = t.ci ∧ Grid.Step t.ci (abs t) (.order p) .unit (abs t') := by
  unfold order at e
  obtain ⟨a, ha, rfl⟩ := Option.map_eq_some_iff.1 e
  obtain ⟨a', ha', hperm, hsort⟩ := Qsort.qsort_correct (cmp := fun a b => p ((aget ideq t.idName a).getD []) ((aget ideq t.idName b).getD []))
    ⟨fun a b => hp.swap _ _, fun a b c => hp.trans _ _ _⟩ t.cols.toArray
  have hae : a' = a := Option.some.inj (ha'.symm.trans ha)
  subst hae
  rw [List.toList_toArray] at hperm
  generalize a'.toList = l at *
  refine ⟨⟨hperm.nodup_iff.2 h.ndc, h.ndr, ?_, ?_, h.dataR, ?_, h.dup, h.ndf, ?_, ?_⟩, rfl, ?_⟩
  · intro k c; dsimp only; rw [hperm.mem_iff]; exact h.names k c
  · intro c n hn; dsimp only; rw [hperm.mem_iff]; exact h.live c n hn
  · intro q hq c v hv; exact hperm.mem_iff.2 (h.dataC q hq c v hv)
  · intro x hx; exact ⟨(h.fresh x hx).1, fun hc => (h.fresh x hx).2.1 (hperm.mem_iff.1 hc), (h.fresh x hx).2.2⟩
  · intro hc; exact h.cols0 (hperm.mem_iff.1 hc)
  · have hidx : ∀ c ∈ t.cols, t.cols[t.cols.idxOf c]? = some c := by
      intro c hc
      have := List.idxOf_lt_length_iff.2 hc
      rw [List.getElem?_eq_getElem this, List.getElem_idxOf this]
    have hrange : t.cols.map (fun c => t.cols.idxOf c) = List.range t.cols.length := by
      apply List.ext_getElem?
      intro i
      rw [List.getElem?_map]
      by_cases hi : i < t.cols.length
      · rw [List.getElem?_range hi, List.getElem?_eq_getElem hi, Option.map_some]
        congr 1
        exact nodup_inj h.ndc (hidx _ (List.getElem_mem hi)) (List.getElem?_eq_getElem hi)
      · rw [List.getElem?_eq_none (by omega), List.getElem?_eq_none (by rw [List.length_range]; omega)]; rfl
    have hsel : ∀ f : Nat → Option Bytes, ((l.map fun c => t.cols.idxOf c).map fun j => (t.cols.map f)[j]?.bind id) = l.map f := by
      intro f
      rw [List.map_map]
      refine List.map_congr_left fun c hc => ?_
      dsimp only [Function.comp]
      rw [List.getElem?_map, hidx c (hperm.mem_iff.1 hc)]; rfl
    have hst := Grid.Step.order (ci := t.ci) (g := abs t) (p := p) (s := l.map fun c => t.cols.idxOf c)
      (by rw [abs_ncols, ← hrange]; exact hperm.map _)
      (by
        rw [List.map_map, List.pairwise_map]
        refine hsort.imp_of_mem fun {x y} hx hy hxy => ?_
        have hkey : ∀ c ∈ l, Grid.key (some (t.cols.idxOf c)) (abs t).names = (aget ideq t.idName c).getD [] := by
          intro c hc
          unfold Grid.key abs
          dsimp only
          rw [Option.bind_some, List.getElem?_map, hidx c (hperm.mem_iff.1 hc)]; rfl
        dsimp only [Function.comp]
        rw [hkey x hx, hkey y hy]; exact hxy)
    have : abs { t with cols := l } = ⟨(l.map fun c => t.cols.idxOf c).map fun j => (abs t).names[j]?.bind id,
        (abs t).cells.map fun r => (l.map fun c => t.cols.idxOf c).map fun j => r[j]?.bind id⟩ := by
      unfold abs
      dsimp only
      congr 1
      · exact (hsel _).symm
      · rw [List.map_map]
        refine List.map_congr_left fun r _ => ?_
        exact (hsel _).symm
    rw [this]
    exact hst

end Verif.Table
