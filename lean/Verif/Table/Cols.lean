import Verif.Table.Lemmas

/-! Adding and removing columns. -/

namespace Verif.Table

theorem genId_fresh {used : Nat → Bool} {rs rs' : List Nat} {id : Nat} (h : ∀ x ∈ rs, used x = false) (e : genId used rs = some (id, rs')) :
    rs = id :: rs' := by
  cases rs with
  | nil => cases e
  | cons x l =>
    unfold genId at e
    rw [if_neg (by rw [h x List.mem_cons_self]; simp)] at e
    cases e; rfl

theorem Inv.unnamed {t : Tbl} (h : Inv t) {x : Nat} (hx : x ∉ t.cols) : aget ideq t.idName x = none := by
  cases hn : aget ideq t.idName x with
  | none => rfl
  | some n => exact absurd (h.live x n hn).1 hx

theorem Inv.nodata {t : Tbl} (h : Inv t) {x : Nat} (hx : x ∉ t.rows) : aget ideq t.data x = none := by
  cases hn : aget ideq t.data x with
  | none => rfl
  | some d => exact absurd (h.dataR x d hn) hx

theorem Inv.nocell {t : Tbl} (h : Inv t) {r c : Nat} (hx : c ∉ t.cols) : getInt t r c = none := by
  cases hn : getInt t r c with
  | none => rfl
  | some d => exact absurd (h.getInt_col hn).1 hx

theorem insCol_spec {t t' : Tbl} {i : Nat} {name : Bytes} {o : Option Nat} (h : Inv t) (hi : i ≤ t.cols.length)
    (hn : name ≠ [] → aget (nmeq t.ci) t.nameId name = none) (e : insCol t i name = some (t', o)) :
    ∃ id, o = some id ∧ Inv t' ∧ t'.ci = t.ci ∧ abs t' = (abs t).addCol i name ∧ t'.cols = t.cols.take i ++ id :: t.cols.drop i ∧
      id ∉ t.cols ∧ t'.rows = t.rows ∧ t'.data = t.data := by
  unfold insCol at e
  rw [if_neg (by omega), if_neg (by rintro ⟨h1, h2⟩; rw [hn h1] at h2; cases h2)] at e
  obtain ⟨⟨id, rs⟩, hg, e⟩ := Option.map_eq_some_iff.1 e
  have hrs := genId_fresh (fun x hx => by rw [h.unnamed (h.fresh x hx).2.1]; rfl) hg
  have hf := h.fresh id (by rw [hrs]; exact List.mem_cons_self)
  have hnd := h.ndf
  rw [hrs, List.nodup_cons] at hnd
  dsimp only at e
  cases e
  have hid : ∀ c, aget ideq (if name ≠ [] then aput ideq t.idName id name else t.idName) c = if id = c then named name else aget ideq t.idName c := by
    intro c
    unfold named
    by_cases hne : name = []
    · rw [if_neg (by simpa using hne), if_pos hne]
      by_cases hc : id = c
      · subst hc; rw [if_pos rfl, h.unnamed hf.2.1]
      · rw [if_neg hc]
    · rw [if_pos hne, if_neg hne, iget_iput]
  refine ⟨id, rfl, ?_, rfl, ?_, rfl, hf.2.1, rfl, rfl⟩
  · constructor
    · exact nodup_ins h.ndc hf.2.1
    · exact h.ndr
    · intro k c
      dsimp only
      rw [hid, mem_ins]
      by_cases hne : name = []
      · rw [if_neg (by simpa using hne)]
        rw [h.names]
        constructor
        · rintro ⟨h1, n, h2, h3⟩
          exact ⟨.inr h1, n, by rw [if_neg (by rintro rfl; exact hf.2.1 h1)]; exact h2, h3⟩
        · rintro ⟨h1, n, h2, h3⟩
          by_cases hc : id = c
          · rw [if_pos hc, named, if_pos hne] at h2; cases h2
          · rw [if_neg hc] at h2
            exact ⟨(h.live c n h2).1, n, h2, h3⟩
      · rw [if_pos hne, aget_aput (nmeq_eqv _), named, if_neg hne]
        by_cases ha : nmeq t.ci name k = true
        · rw [if_pos ha]
          constructor
          · intro hc
            cases hc
            exact ⟨.inl rfl, name, if_pos rfl, nmeq_iff.1 ha⟩
          · rintro ⟨h1, n, h2, h3⟩
            by_cases hc : id = c
            · rw [hc]
            · rw [if_neg hc] at h2
              have := (h.names name c).2 ⟨(h.live c n h2).1, n, h2, h3.trans (nmeq_iff.1 ha).symm⟩
              rw [hn hne] at this; cases this
        · rw [if_neg ha, h.names]
          constructor
          · rintro ⟨h1, n, h2, h3⟩
            exact ⟨.inr h1, n, by rw [if_neg (by rintro rfl; exact hf.2.1 h1)]; exact h2, h3⟩
          · rintro ⟨h1, n, h2, h3⟩
            by_cases hc : id = c
            · rw [if_pos hc] at h2
              cases h2
              exact absurd (nmeq_iff.2 h3) ha
            · rw [if_neg hc] at h2
              exact ⟨(h.live c n h2).1, n, h2, h3⟩
    · intro c n
      dsimp only
      rw [hid, mem_ins]
      intro hc
      by_cases hcc : id = c
      · rw [if_pos hcc] at hc
        refine ⟨.inl hcc.symm, ?_⟩
        rintro rfl
        unfold named at hc
        split at hc
        · cases hc
        · cases hc; contradiction
      · rw [if_neg hcc] at hc
        exact ⟨.inr (h.live c n hc).1, (h.live c n hc).2⟩
    · exact h.dataR
    · intro p hp c v hv
      exact mem_ins.2 (.inr (h.dataC p hp c v hv))
    · exact h.dup
    · exact hnd.2
    · intro x hx
      have hx' : x ∈ t.rs := by rw [hrs]; exact List.mem_cons_of_mem _ hx
      refine ⟨(h.fresh x hx').1, ?_, (h.fresh x hx').2.2⟩
      rw [mem_ins]
      rintro (rfl | hc)
      · exact hnd.1 hx
      · exact (h.fresh x hx').2.1 hc
    · rw [mem_ins]
      rintro (hc | hc)
      · exact hf.1 hc.symm
      · exact h.cols0 hc
  · unfold abs Grid.addCol
    dsimp only
    have hsub : ∀ y ∈ t.cols, aget ideq (if name ≠ [] then aput ideq t.idName id name else t.idName) y = aget ideq t.idName y := by
      intro y hy
      rw [hid, if_neg (by rintro rfl; exact hf.2.1 hy)]
    congr 1
    · rw [List.map_append, List.map_cons, hid, if_pos rfl, ← List.map_take, ← List.map_drop]
      congr 1
      · exact List.map_congr_left fun y hy => hsub y (List.mem_of_mem_take hy)
      · congr 1
        exact List.map_congr_left fun y hy => hsub y (List.mem_of_mem_drop hy)
    · rw [List.map_map]
      refine List.map_congr_left fun r _ => ?_
      dsimp only [Function.comp]
      rw [List.map_append, List.map_cons, ← List.map_take, ← List.map_drop]
      have : ∀ c, getInt { t with
        rs := rs
        cols := t.cols.take i ++ id :: t.cols.drop i
        idName := if name ≠ [] then aput ideq t.idName id name else t.idName
        nameId := if name ≠ [] then aput (nmeq t.ci) t.nameId name id else t.nameId } r c = getInt t r c := fun _ => rfl
      simp only [this]
      rw [h.nocell hf.2.1]
      rfl

/-- A column goes away. -/
theorem Inv.dropCol {t : Tbl} (h : Inv t) {j id : Nat} (hj : t.cols[j]? = some id) {cs : List Nat} (hcs : cs = t.cols.take j ++ t.cols.drop (j + 1))
    {data : List (Nat × List (Nat × Bytes))}
    (hR : ∀ r d, aget ideq data r = some d → r ∈ t.rows)
    (hC : ∀ p ∈ data, ∀ c v, aget ideq p.2 c = some v → c ∈ t.cols ∧ c ≠ id)
    (hD : ∀ p ∈ data, aget ideq data p.1 = some p.2)
    (hG : ∀ r c, c ≠ id → ((aget ideq data r).bind fun d => aget ideq d c) = getInt t r c) :
    let t' := { dropName { t with cols := cs } id with data := data }
    Inv t' ∧ abs t' = (abs t).delCol j ∧ t'.ci = t.ci ∧ t'.rows = t.rows ∧ t'.cols = cs ∧
      (∀ c, c ≠ id → aget ideq t'.idName c = aget ideq t.idName c) := by
  intro t'
  have hmem : ∀ y, y ∈ cs ↔ y ∈ t.cols ∧ y ≠ id := fun y => by rw [hcs]; exact mem_split h.ndc hj
  have hid : ∀ c, aget ideq t'.idName c = if id = c then none else aget ideq t.idName c := fun c => iget_idel ..
  refine ⟨?_, ?_, rfl, rfl, rfl, ?_⟩
  · constructor
    · show cs.Nodup
      rw [hcs, ← filter_ne h.ndc hj]
      exact List.Nodup.sublist List.filter_sublist h.ndc
    · exact h.ndr
    · intro k c
      show aget (nmeq t.ci) t'.nameId k = some c ↔ c ∈ cs ∧ _
      rw [hid, hmem]
      have hnm : aget (nmeq t.ci) t'.nameId k = some c ↔ aget (nmeq t.ci) t.nameId k = some c ∧ c ≠ id := by
        show aget (nmeq t.ci) (match aget ideq t.idName id with
          | some n => adel (nmeq t.ci) t.nameId n
          | none => t.nameId) k = some c ↔ _
        cases hn : aget ideq t.idName id with
        | none =>
          dsimp only
          constructor
          · intro hc
            refine ⟨hc, ?_⟩
            rintro rfl
            obtain ⟨_, n, h2, _⟩ := (h.names k c).1 hc
            rw [hn] at h2; cases h2
          · exact fun hc => hc.1
        | some n =>
          dsimp only
          rw [aget_adel (nmeq_eqv _)]
          by_cases ha : nmeq t.ci n k = true
          · rw [if_pos ha]
            constructor
            · intro hc; cases hc
            · rintro ⟨hc, hne⟩
              have := (h.names k id).2 ⟨(h.live id n hn).1, n, hn, nmeq_iff.1 ha⟩
              rw [hc] at this
              cases this; exact absurd rfl hne
          · rw [if_neg ha]
            constructor
            · intro hc
              refine ⟨hc, ?_⟩
              rintro rfl
              obtain ⟨_, n', h2, h3⟩ := (h.names k c).1 hc
              rw [hn] at h2; cases h2
              exact ha (nmeq_iff.2 h3)
            · exact fun hc => hc.1
      rw [hnm, h.names]
      constructor
      · rintro ⟨⟨h1, n, h2, h3⟩, h4⟩
        exact ⟨⟨h1, h4⟩, n, by rw [if_neg (Ne.symm h4)]; exact h2, h3⟩
      · rintro ⟨⟨h1, h4⟩, n, h2, h3⟩
        rw [if_neg (Ne.symm h4)] at h2
        exact ⟨⟨h1, n, h2, h3⟩, h4⟩
    · intro c n hc
      rw [hid] at hc
      show c ∈ cs ∧ _
      rw [hmem]
      by_cases hcc : id = c
      · rw [if_pos hcc] at hc; cases hc
      · rw [if_neg hcc] at hc
        exact ⟨⟨(h.live c n hc).1, Ne.symm hcc⟩, (h.live c n hc).2⟩
    · exact hR
    · intro p hp c v hv
      exact (hmem c).2 (hC p hp c v hv)
    · exact hD
    · exact h.ndf
    · intro x hx
      refine ⟨(h.fresh x hx).1, ?_, (h.fresh x hx).2.2⟩
      exact fun hc => (h.fresh x hx).2.1 ((hmem x).1 hc).1
    · exact fun hc => h.cols0 ((hmem 0).1 hc).1
  · have h1 : ∀ y ∈ cs, aget ideq t'.idName y = aget ideq t.idName y := by
      intro y hy
      rw [hid, if_neg (Ne.symm ((hmem y).1 hy).2)]
    have h2 : ∀ r, ∀ y ∈ cs, getInt t' r y = getInt t r y := fun r y hy => hG r y ((hmem y).1 hy).2
    unfold abs Grid.delCol
    dsimp only
    have h3 : t'.cols = cs := rfl
    have h4 : t'.rows = t.rows := rfl
    rw [h3, h4]
    congr 1
    · rw [List.map_congr_left h1, hcs, List.map_append, List.map_take, List.map_drop]
    · rw [List.map_map]
      refine List.map_congr_left fun r _ => ?_
      dsimp only [Function.comp]
      rw [List.map_congr_left (h2 r), hcs, List.map_append, List.map_take, List.map_drop]
  · intro c hc
    rw [hid, if_neg (Ne.symm hc)]

theorem rmColInt_spec {t : Tbl} (h : Inv t) {j id : Nat} (hj : t.cols[j]? = some id) :
    Inv (rmColInt t id) ∧ abs (rmColInt t id) = (abs t).delCol j ∧ (rmColInt t id).ci = t.ci := by
  unfold rmColInt
  rw [if_neg (by simpa using List.mem_of_getElem? hj)]
  have hmap : ∀ r, aget ideq (t.data.map fun p => (p.1, adel ideq p.2 id)) r = (aget ideq t.data r).map fun d => adel ideq d id :=
    fun r => aget_map t.data (fun d => adel ideq d id) r
  have := h.dropCol hj (cs := t.cols.filter (· != id)) (filter_ne h.ndc hj) (data := t.data.map fun p => (p.1, adel ideq p.2 id))
    (by
      intro r d hd
      rw [hmap] at hd
      obtain ⟨d', hd', _⟩ := Option.map_eq_some_iff.1 hd
      exact h.dataR r d' hd')
    (by
      intro p hp c v hv
      obtain ⟨q, hq, rfl⟩ := List.mem_map.1 hp
      dsimp only at hv
      rw [iget_idel] at hv
      by_cases hc : id = c
      · rw [if_pos hc] at hv; cases hv
      · rw [if_neg hc] at hv
        exact ⟨h.dataC q hq c v hv, Ne.symm hc⟩)
    (by
      intro p hp
      obtain ⟨q, hq, rfl⟩ := List.mem_map.1 hp
      dsimp only
      rw [hmap, h.dup q hq]; rfl)
    (by
      intro r c hc
      rw [hmap]
      unfold getInt
      cases aget ideq t.data r with
      | none => rfl
      | some d => simp only [Option.map_some, Option.bind_some]; rw [iget_idel, if_neg (Ne.symm hc)])
  exact ⟨this.1, this.2.1, this.2.2.1⟩

/-- The column holds a value somewhere. -/
def has (data : List (Nat × List (Nat × Bytes))) (c : Nat) : Bool := data.any fun p => (aget ideq p.2 c).isSome

theorem rmEmptyColsLoop_spec (i : Nat) {t t' : Tbl} {n n' : Nat} (h : Inv t) (hi : i ≤ t.cols.length) (e : rmEmptyColsLoop i t n = (t', n')) :
    Inv t' ∧ t'.ci = t.ci ∧ t'.rows = t.rows ∧ t'.data = t.data ∧
      t'.cols = (t.cols.take i).filter (has t.data) ++ t.cols.drop i ∧ n' = n + ((t.cols.take i).map (has t.data)).count false ∧
      ∀ c ∈ t'.cols, aget ideq t'.idName c = aget ideq t.idName c := by
  induction i generalizing t n with
  | zero =>
    unfold rmEmptyColsLoop at e; cases e
    exact ⟨h, rfl, rfl, rfl, by simp, by simp, fun _ _ => rfl⟩
  | succ i ih =>
    have hj : t.cols[i]? = some t.cols[i] := List.getElem?_eq_getElem hi
    unfold rmEmptyColsLoop at e
    rw [hj] at e
    change (if has t.data t.cols[i] = true then rmEmptyColsLoop i t n
      else rmEmptyColsLoop i (dropName { t with cols := t.cols.take i ++ t.cols.drop (i + 1) } t.cols[i]) (n + 1)) = (t', n') at e
    have htake : t.cols.take (i + 1) = t.cols.take i ++ [t.cols[i]] := by rw [List.take_succ, hj]; rfl
    have hdrop : t.cols.drop i = t.cols[i] :: t.cols.drop (i + 1) := List.drop_eq_getElem_cons hi
    by_cases hh : has t.data t.cols[i] = true
    · rw [if_pos hh] at e
      obtain ⟨h1, h2, h3, h4, h5, h6, h7⟩ := ih h (by omega) e
      refine ⟨h1, h2, h3, h4, ?_, ?_, h7⟩
      · rw [h5, htake, List.filter_append, hdrop, List.filter_cons, if_pos hh]
        simp
      · rw [h6, htake, List.map_append, List.count_append, List.map_cons, hh]
        simp
    · rw [if_neg hh] at e
      have hno : ∀ p ∈ t.data, aget ideq p.2 t.cols[i] = none := by
        intro p hp
        cases hv : aget ideq p.2 t.cols[i] with
        | none => rfl
        | some v => exact absurd (List.any_eq_true.2 ⟨p, hp, by rw [hv]; rfl⟩) hh
      obtain ⟨d1, _, d3, d4, d5, d6⟩ := h.dropCol hj (cs := t.cols.take i ++ t.cols.drop (i + 1)) rfl (data := t.data) h.dataR
        (fun p hp c v hv => ⟨h.dataC p hp c v hv, by rintro rfl; rw [hno p hp] at hv; cases hv⟩) h.dup (fun _ _ _ => rfl)
      have hl : (t.cols.take i).length = i := by rw [List.length_take]; omega
      obtain ⟨h1, h2, h3, h4, h5, h6, h7⟩ := ih (t := dropName { t with cols := t.cols.take i ++ t.cols.drop (i + 1) } t.cols[i]) d1
        (by show i ≤ (t.cols.take i ++ t.cols.drop (i + 1)).length; rw [List.length_append, hl]; omega) e
      have hcols : (dropName { t with cols := t.cols.take i ++ t.cols.drop (i + 1) } t.cols[i]).cols = t.cols.take i ++ t.cols.drop (i + 1) := rfl
      have hdata : (dropName { t with cols := t.cols.take i ++ t.cols.drop (i + 1) } t.cols[i]).data = t.data := rfl
      rw [hcols, hdata, List.take_append_of_le_length (by omega), List.take_of_length_le (by omega : (t.cols.take i).length ≤ i)] at h5 h6
      rw [List.drop_append_of_le_length (by omega), List.drop_of_length_le (by omega : (t.cols.take i).length ≤ i), List.nil_append] at h5
      refine ⟨h1, h2.trans d3, h3.trans d4, h4, ?_, ?_, ?_⟩
      · rw [h5, htake, List.filter_append, List.filter_cons, if_neg hh]
        simp
      · rw [h6, htake, List.map_append, List.count_append, List.map_cons]
        simp only [hh]
        simp
        omega
      · intro c hc
        rw [h7 c hc]
        apply d6
        have : c ∈ t.cols.take i ++ t.cols.drop (i + 1) := by
          rw [h5] at hc
          rw [List.mem_append] at *
          rcases hc with hc | hc
          · exact .inl (List.mem_filter.1 hc).1
          · exact .inr hc
        exact ((mem_split h.ndc hj).1 this).2

theorem pick_map {α β : Type} (l : List α) (p : α → Bool) (f : α → β) : Grid.pick (l.map p) (l.map f) = (l.filter p).map f := by
  induction l with
  | nil => rfl
  | cons x l ih =>
    rw [List.map_cons, List.map_cons, Grid.pick, ih, List.filter_cons]
    split <;> rfl

theorem has_cells {t : Tbl} (h : Inv t) (c : Nat) : has t.data c = t.rows.any fun r => (getInt t r c).isSome := by
  rw [Bool.eq_iff_iff, List.any_eq_true]
  unfold has
  rw [List.any_eq_true]
  constructor
  · rintro ⟨p, hp, hv⟩
    refine ⟨p.1, h.dataR _ _ (h.dup p hp), ?_⟩
    unfold getInt
    rw [h.dup p hp]; exact hv
  · rintro ⟨r, _, hv⟩
    unfold getInt at hv
    cases hd : aget ideq t.data r with
    | none => rw [hd] at hv; cases hv
    | some d =>
      rw [hd] at hv
      unfold aget at hd
      obtain ⟨p, hp, rfl⟩ := Option.map_eq_some_iff.1 hd
      exact ⟨p, List.mem_of_find?_eq_some hp, hv⟩

theorem abs_used {t : Tbl} (h : Inv t) : (abs t).used = t.cols.map (has t.data) := by
  unfold Grid.used
  rw [abs_ncols]
  apply List.ext_getElem?
  intro j
  rw [List.getElem?_map, List.getElem?_map]
  by_cases hj : j < t.cols.length
  · rw [List.getElem?_range hj, List.getElem?_eq_getElem hj, Option.map_some, Option.map_some, has_cells h]
    congr 1
    unfold abs
    dsimp only
    rw [List.any_map]
    congr 1
    funext r
    dsimp only [Function.comp]
    rw [List.getElem?_map, List.getElem?_eq_getElem hj]; rfl
  · rw [List.getElem?_eq_none (by simp; omega), List.getElem?_eq_none (by omega)]; rfl

theorem rmEmptyCols_spec {t : Tbl} (h : Inv t) :
    Inv (rmEmptyCols t).1 ∧ (rmEmptyCols t).1.ci = t.ci ∧ (rmEmptyCols t).2 = (abs t).used.count false ∧
      abs (rmEmptyCols t).1 = ⟨Grid.pick (abs t).used (abs t).names, (abs t).cells.map (Grid.pick (abs t).used)⟩ := by
  obtain ⟨t', n', e⟩ : ∃ t' n', rmEmptyColsLoop t.cols.length t 0 = (t', n') := ⟨_, _, rfl⟩
  obtain ⟨h1, h2, h3, h4, h5, h6, h7⟩ := rmEmptyColsLoop_spec t.cols.length h (Nat.le_refl _) e
  unfold rmEmptyCols
  rw [e]
  rw [List.take_length, List.drop_length, List.append_nil] at h5
  rw [List.take_length, Nat.zero_add] at h6
  refine ⟨h1, h2, by rw [abs_used h]; exact h6, ?_⟩
  rw [abs_used h]
  unfold abs
  dsimp only
  congr 1
  · rw [pick_map, List.map_congr_left h7, h5]
  · rw [List.map_map, h3]
    refine List.map_congr_left fun r _ => ?_
    dsimp only [Function.comp]
    rw [pick_map, h5]
    refine List.map_congr_left fun c _ => ?_
    unfold getInt; rw [h4]

theorem setName_spec {t : Tbl} (h : Inv t) {i : Nat} {name : Bytes} (ho : Ok t.ci (abs t) (.setName i name)) (hi : i < t.cols.length) :
    Inv (setName t i name).1 ∧ (setName t i name).1.ci = t.ci ∧ (setName t i name).2 = true ∧
      abs (setName t i name).1 = ⟨(abs t).names.set i (named name), (abs t).cells⟩ := by
  have hj : t.cols[i]? = some t.cols[i] := List.getElem?_eq_getElem hi
  generalize hid : t.cols[i] = id at *
  have hmem : id ∈ t.cols := List.mem_of_getElem? hj
  have hnm : ∀ j, (abs t).names[j]? = t.cols[j]?.map (aget ideq t.idName) := fun j => List.getElem?_map
  have ho1 : ∀ m, aget ideq t.idName id = some m → name ≠ [] ∧ Alike t.ci m name := by
    intro m hm
    refine ho.1 m ?_
    rw [hnm, hj, Option.map_some, hm]
  have ho2 : ∀ c m, c ≠ id → aget ideq t.idName c = some m → ¬ Alike t.ci m name := by
    intro c m hc hm
    obtain ⟨k, hk⟩ := List.mem_iff_getElem?.1 (h.live c m hm).1
    refine ho.2 k m ?_ ?_
    · rintro rfl; rw [hj] at hk; cases hk; exact hc rfl
    · rw [hnm, hk, Option.map_some, hm]
  unfold setName
  rw [hj]
  dsimp only
  by_cases hne : name = []
  · subst hne
    rw [if_pos rfl]
    have hun : aget ideq t.idName id = none := by
      cases hm : aget ideq t.idName id with
      | none => rfl
      | some m => exact absurd rfl (ho1 m hm).1
    have h1 : ∀ c, aget ideq (adel ideq t.idName id) c = aget ideq t.idName c := by
      intro c
      rw [iget_idel]
      by_cases hc : id = c
      · rw [if_pos hc, ← hc, hun]
      · rw [if_neg hc]
    have h2 : ∀ k, aget (nmeq t.ci) (adel (nmeq t.ci) t.nameId []) k = aget (nmeq t.ci) t.nameId k := by
      intro k
      rw [aget_adel (nmeq_eqv _)]
      by_cases hc : nmeq t.ci [] k = true
      · rw [if_pos hc, (nmeq_iff.1 hc).symm.nil, h.find_nil]
      · rw [if_neg hc]
    refine ⟨⟨h.ndc, h.ndr, ?_, ?_, h.dataR, h.dataC, h.dup, h.ndf, h.fresh, h.cols0⟩, rfl, rfl, ?_⟩
    · intro k c; dsimp only; rw [h2, h1]; exact h.names k c
    · intro c n; dsimp only; rw [h1]; exact h.live c n
    · unfold abs
      dsimp only
      congr 1
      rw [map_set h.ndc hj (aget ideq t.idName) _ (fun y _ _ => h1 y), h1, hun]
      rfl
  · rw [if_neg hne]
    refine ⟨⟨h.ndc, h.ndr, ?_, ?_, h.dataR, h.dataC, h.dup, h.ndf, h.fresh, h.cols0⟩, rfl, rfl, ?_⟩
    · intro k c
      dsimp only
      rw [iget_iput, aget_aput (nmeq_eqv _)]
      by_cases ha : nmeq t.ci name k = true
      · rw [if_pos ha]
        constructor
        · intro hc; cases hc
          exact ⟨hmem, name, if_pos rfl, nmeq_iff.1 ha⟩
        · rintro ⟨h1, n, h2, h3⟩
          by_cases hc : id = c
          · rw [hc]
          · rw [if_neg hc] at h2
            exact absurd (h3.trans (nmeq_iff.1 ha).symm) (ho2 c n (Ne.symm hc) h2)
      · rw [if_neg ha, h.names]
        by_cases hc : id = c
        · subst hc
          rw [if_pos rfl]
          constructor
          · rintro ⟨h1, n, h2, h3⟩
            exact absurd (nmeq_iff.2 ((ho1 n h2).2.symm.trans h3)) ha
          · rintro ⟨h1, n, h2, h3⟩
            cases h2
            exact absurd (nmeq_iff.2 h3) ha
        · rw [if_neg hc]
    · intro c n
      dsimp only
      rw [iget_iput]
      by_cases hc : id = c
      · rw [if_pos hc]; intro hcc; cases hcc; exact ⟨hc ▸ hmem, hne⟩
      · rw [if_neg hc]; exact h.live c n
    · unfold abs
      dsimp only
      congr 1
      rw [map_set h.ndc hj (aget ideq t.idName) _ (fun y _ hy => by rw [iget_iput, if_neg (Ne.symm hy)]), iget_iput, if_pos rfl]
      rw [named, if_neg hne]

end Verif.Table
