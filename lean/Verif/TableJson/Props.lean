import Verif.TableJson.Lemmas
import Verif.Json.Props

/-!
# C127: tables as JSON

`Hist (create ci rs) hs t`: the table `t` is what a new table becomes by any calls.  `view t` is the grid of names and values a
caller sees, and `look` (`Spec`) its value in a row under a name.
-/

namespace Verif.TableJson
open Verif Verif.Table Verif.TableCsv Verif.TableMerge
open Verif.Json (Json)

theorem all_some : ∀ {l : List (Option Bytes)}, none ∉ l → ∃ hd : List Bytes, l = hd.map some
  | [], _ => ⟨[], rfl⟩
  | none :: _, h => by simp at h
  | some a :: l, h => by
    obtain ⟨hd, e⟩ := all_some (l := l) fun hm => h (List.mem_cons_of_mem _ hm)
    exact ⟨a :: hd, by rw [e]; rfl⟩

theorem load_inv {t : Tbl} (hi : Inv t) (hdn : none ∉ (view t).names) {rs' : List Nat} (hnd' : rs'.Nodup) (h0' : 0 ∉ rs')
    {os : List (List (Bytes × Bytes))} (hne : ∀ o ∈ os, ∀ p ∈ o, p.1 ≠ []) (hk : ∀ o ∈ os, (o.map (·.1)).Nodup)
    (hd : ∀ o ∈ os, ∀ p ∈ o, ∀ o' ∈ os, ∀ p' ∈ o', Alike t.ci p.1 p'.1 → p.1 = p'.1)
    (hr' : (os.map fun o => o.length + 1).sum ≤ rs'.length)
    (hr : os.length * ((os.map fun o => o.length + 1).sum + 1) ≤ t.rs.length) :
    ∃ t', loadNode t rs' (document os) = some (t', true) ∧ (view t').cells.length = (view t).cells.length + os.length ∧
      (∀ i, i < (view t).cells.length → ∀ n, look t.ci (view t') i n = look t.ci (view t) i n) ∧
      (∀ i o, os[i]? = some o → ∀ n, look t.ci (view t') ((view t).cells.length + i) n = member t.ci o n) ∧
      (∃ extra : List Bytes, (view t').names = (view t).names ++ extra.map some ∧
        ∀ k ∈ extra, (view t).find t.ci k = none ∧ ∃ o ∈ os, ∃ p ∈ o, k = p.1) := by
  rw [← cost_eq] at hr hr'
  obtain ⟨j, e1, e2, e3, e4, e5, e6, e7, e8⟩ := loadArr_spec os (Inv.create false hnd' h0') rfl hne hk hr'
  have hnone : none ∉ (view j).names := by
    rw [abs_view, e8]
    rintro (h | ⟨o, _, p, _, h⟩)
    · cases h
    · cases h
  obtain ⟨names, hnames⟩ := all_some hnone
  have hkeys : ∀ k, k ∈ names ↔ ∃ o ∈ os, ∃ p ∈ o, k = p.1 := by
    intro k
    have := e8 (some k)
    rw [← abs_view, hnames] at this
    constructor
    · intro h
      rcases this.mp (List.mem_map.mpr ⟨k, h, rfl⟩) with h | ⟨o, ho, p, hp, h⟩
      · cases h
      · exact ⟨o, ho, p, hp, Option.some.inj h⟩
    · rintro ⟨o, ho, p, hp, rfl⟩
      obtain ⟨x, hx, e⟩ := List.mem_map.mp (this.mpr (.inr ⟨o, ho, p, hp, rfl⟩))
      cases e
      exact hx
  have huniq : ∀ a ∈ names, ∀ b ∈ names, Alike t.ci a b → a = b := by
    intro a ha b hb hab
    obtain ⟨o, ho, p, hp, rfl⟩ := (hkeys a).mp ha
    obtain ⟨o', ho', p', hp', rfl⟩ := (hkeys b).mp hb
    exact hd o ho p hp o' ho' p' hp' hab
  have hdis0 := names_distinct e2 (hd := names) (by rw [← abs_view]; exact hnames)
  have hdis : Distinct t.ci names := by
    refine List.Pairwise.imp_of_mem (fun {a b} ha hb hab h => ?_) (distinct_nodup hdis0)
    exact hab (huniq a ha b hb h)
  have e4 : (view j).cells.length = os.length := by
    rw [abs_view, e4]
    show 0 + os.length = os.length
    omega
  have hw : names.length ≤ cost os := by
    rw [← abs_view j, hnames, List.length_map] at e7
    have : (abs (create false rs')).names.length = 0 := rfl
    omega
  obtain ⟨t', f1, f2, f3, f4⟩ := merge_inv hi e2 hdn hnames hdis
    (Nat.le_trans (by rw [e4]; exact Nat.mul_le_mul_left _ (Nat.succ_le_succ hw)) hr)
  have hload : loadNode t rs' (document os) = some (t', true) := by
    unfold document
    rw [loadNode, e1, Option.bind_some]
    exact f1
  refine ⟨t', hload, ?_⟩
  by_cases hos : os = []
  · subst hos
    have h0 : (view j).cells = [] := List.eq_nil_of_length_eq_zero e4
    rw [if_pos h0] at f4
    rw [f4]
    exact ⟨rfl, fun _ _ _ => rfl, fun i o ho => by simp at ho, [], by simp, fun k hk => by simp at hk⟩
  · have h1 : (view j).cells ≠ [] := by
      intro h
      rw [h] at e4
      exact hos (List.eq_nil_of_length_eq_zero e4.symm)
    rw [if_neg h1] at f4
    rw [f4]
    refine ⟨by rw [look_cells_len, e4], fun i hlt n => look_old (by rw [abs_view]; exact abs_rect t) hlt n, ?_,
      fresh t.ci (view t) names, rfl, ?_⟩
    · intro i o ho n
      have hlt : i < (view j).cells.length := by
        rw [e4]
        exact (List.getElem?_eq_some_iff.mp ho).1
      have hrow := List.getElem?_eq_getElem hlt
      rw [look_new hrow]
      have ho' := List.mem_of_getElem? ho
      have hl : (view j).cells[i].length = names.length := by
        have := abs_rect j (view j).cells[i] (by rw [← abs_view]; exact List.getElem_mem hlt)
        rw [this, ← abs_view, hnames, List.length_map]
      by_cases hm : ∃ m ∈ names, Alike t.ci m n
      · obtain ⟨m, hm, ha⟩ := hm
        have key : ∀ k ∈ names, Alike t.ci k n ↔ Alike false k m := by
          intro k hk'
          constructor
          · intro h
            show k = m
            exact huniq k hk' m hm (alike_trans h (alike_symm ha))
          · intro h
            have : k = m := h
            rw [this]
            exact ha
        rw [under_congr key, ← under_look hnames hrow hl, abs_view]
        have := e6 i o ho m
        rw [show (abs (create false rs')).cells.length + i = i by show 0 + i = i; omega] at this
        rw [this]
        unfold member
        rw [find?_congr' fun p hp => ?_]
        rw [decide_eq_decide]
        exact (key p.1 ((hkeys p.1).mpr ⟨o, ho', p, hp, rfl⟩)).symm
      · rw [under_none fun k hk' h => hm ⟨k, hk', h⟩]
        unfold member
        have : o.find? (fun p => decide (Alike t.ci p.1 n)) = none := by
          rw [List.find?_eq_none]
          intro p hp
          simp only [decide_eq_true_eq]
          exact fun h => hm ⟨p.1, (hkeys p.1).mpr ⟨o, ho', p, hp, rfl⟩, h⟩
        rw [this]
        rfl
    · intro k hk'
      unfold fresh at hk'
      obtain ⟨h2, h3⟩ := List.mem_filter.mp hk'
      exact ⟨by simpa using h3, (hkeys k).mp h2⟩

/-- Loading any array of objects of strings into any table whose columns have names: each object becomes a row at the bottom that
has the values of the object under their names and nothing under others, the rows above keep what they had, and the columns added
are at the right and have names of members that were not there.

Partial: no two members may have names that the table takes for the same but that differ: see `case_fails`. `rs` and `rs'` are
what the random generators give out, which must be different numbers, as in `Verif.Table`. -/
theorem load_partial {ci : Bool} {rs rs' : List Nat} {hs : List (Op × Out)} {t : Tbl} (hnd : rs.Nodup) (h0 : 0 ∉ rs)
    (hh : Hist (create ci rs) hs t) (hdn : none ∉ (view t).names) (hnd' : rs'.Nodup) (h0' : 0 ∉ rs')
    {os : List (List (Bytes × Bytes))} (hne : ∀ o ∈ os, ∀ p ∈ o, p.1 ≠ []) (hk : ∀ o ∈ os, (o.map (·.1)).Nodup)
    (hd : ∀ o ∈ os, ∀ p ∈ o, ∀ o' ∈ os, ∀ p' ∈ o', Alike ci p.1 p'.1 → p.1 = p'.1)
    (hr' : (os.map fun o => o.length + 1).sum ≤ rs'.length)
    (hr : os.length * ((os.map fun o => o.length + 1).sum + 1) ≤ t.rs.length) :
    ∃ t', loadNode t rs' (document os) = some (t', true) ∧ (view t').cells.length = (view t).cells.length + os.length ∧
      (∀ i, i < (view t).cells.length → ∀ n, look ci (view t') i n = look ci (view t) i n) ∧
      (∀ i o, os[i]? = some o → ∀ n, look ci (view t') ((view t).cells.length + i) n = member ci o n) ∧
      (∃ extra : List Bytes, (view t').names = (view t).names ++ extra.map some ∧
        ∀ k ∈ extra, (view t).find ci k = none ∧ ∃ o ∈ os, ∃ p ∈ o, k = p.1) := by
  obtain ⟨hi, hc, _⟩ := hist_sound (Inv.create ci hnd h0) hh
  have hc : t.ci = ci := hc
  subst hc
  exact load_inv hi hdn hnd' h0' hne hk hd hr' hr

theorem merge_false {dest src t' : Tbl} (h : merge dest src = some (t', false)) : t' = dest := by
  unfold merge at h
  split at h
  · cases h; rfl
  · split at h
    · cases h; rfl
    · obtain ⟨x, _, e⟩ := Option.map_eq_some_iff.mp h
      cases e

/-- If loading fails the table is as it was: even the first objects of a document with something else in it are not added. -/
theorem load_refused {t t' : Tbl} {rs : List Nat} {after data : List UInt8} (h : loadJson t rs after data = some (t', false)) :
    t' = t := by
  unfold loadJson at h
  split at h
  · cases h
  · cases h; rfl
  · unfold loadNode at h
    split at h
    · obtain ⟨x, _, e⟩ := Option.bind_eq_some_iff.mp h
      split at e
      · exact merge_false e
      · cases e; rfl
    · cases h; rfl

theorem loadObj_true {row : Nat} : ∀ {ms : List (Bytes × Json)} {t t' : Tbl}, loadObj row ms t = some (t', true) →
    ∃ o : List (Bytes × Bytes), ms = (o.map fun p => (p.1, Json.str p.2)) ∧ ∀ p ∈ o, p.1 ≠ []
  | [], _, _, _ => ⟨[], rfl, by simp⟩
  | (k, .str v) :: ms, t, t', h => by
    rw [loadObj] at h
    obtain ⟨⟨x, b⟩, e1, e2⟩ := Option.bind_eq_some_iff.mp h
    cases b with
    | false => cases e2
    | true =>
      obtain ⟨o, e3, e4⟩ := loadObj_true (ms := ms) e2
      refine ⟨(k, v) :: o, by rw [e3]; rfl, fun p hp => ?_⟩
      rcases List.mem_cons.mp hp with rfl | hp
      · intro hk
        unfold Table.set at e1
        split at e1
        · cases e1
        · rw [if_pos hk] at e1
          cases e1
      · exact e4 p hp
  | (_, .null) :: _, _, _, h => by simp [loadObj] at h
  | (_, .bool _) :: _, _, _, h => by simp [loadObj] at h
  | (_, .int _) :: _, _, _, h => by simp [loadObj] at h
  | (_, .dec _) :: _, _, _, h => by simp [loadObj] at h
  | (_, .arr _) :: _, _, _, h => by simp [loadObj] at h
  | (_, .obj _) :: _, _, _, h => by simp [loadObj] at h

theorem loadArr_true : ∀ {l : List Json} {t t' : Tbl}, loadArr l t = some (t', true) →
    ∃ os : List (List (Bytes × Bytes)), l = os.map object ∧ ∀ o ∈ os, ∀ p ∈ o, p.1 ≠ []
  | [], _, _, _ => ⟨[], rfl, by simp⟩
  | .obj ms :: l, t, t', h => by
    rw [loadArr] at h
    obtain ⟨x, _, h⟩ := Option.bind_eq_some_iff.mp h
    obtain ⟨⟨y, b⟩, e1, e2⟩ := Option.bind_eq_some_iff.mp h
    cases b with
    | false => cases e2
    | true =>
      obtain ⟨o, e3, e4⟩ := loadObj_true e1
      obtain ⟨os, e5, e6⟩ := loadArr_true (l := l) e2
      refine ⟨o :: os, by rw [e3, e5]; rfl, fun o' ho => ?_⟩
      rcases List.mem_cons.mp ho with rfl | ho
      · exact e4
      · exact e6 o' ho
  | .null :: _, _, _, h => by simp [loadArr] at h
  | .bool _ :: _, _, _, h => by simp [loadArr] at h
  | .int _ :: _, _, _, h => by simp [loadArr] at h
  | .dec _ :: _, _, _, h => by simp [loadArr] at h
  | .arr _ :: _, _, _, h => by simp [loadArr] at h
  | .str _ :: _, _, _, h => by simp [loadArr] at h

theorem loadNode_true {t t' : Tbl} {rs : List Nat} {j : Json} (h : loadNode t rs j = some (t', true)) :
    ∃ os, j = document os ∧ ∀ o ∈ os, ∀ p ∈ o, p.1 ≠ [] := by
  cases j with
  | arr l =>
    rw [loadNode] at h
    obtain ⟨⟨x, b⟩, e1, e2⟩ := Option.bind_eq_some_iff.mp h
    cases b with
    | false => cases e2
    | true =>
      obtain ⟨os, e3, e4⟩ := loadArr_true e1
      exact ⟨os, by rw [e3]; rfl, e4⟩
  | null => cases h
  | bool _ => cases h
  | int _ => cases h
  | dec _ => cases h
  | str _ => cases h
  | obj _ => cases h

/-- Only text that is an array of objects of strings whose names are not empty is accepted. -/
theorem load_accepts {t t' : Tbl} {rs : List Nat} {after data : List UInt8} (h : loadJson t rs after data = some (t', true)) :
    ∃ os k, Json.read { uniqueKeys := true } true after data = some (.ok (document os, k)) ∧ ∀ o ∈ os, ∀ p ∈ o, p.1 ≠ [] := by
  unfold loadJson at h
  split at h
  · cases h
  · cases h
  · rename_i j k e
    obtain ⟨os, rfl, h2⟩ := loadNode_true h
    exact ⟨os, k, e, h2⟩

/-- A table is not written if, and only if, a column has no name. -/
theorem write_refused {ci : Bool} {rs : List Nat} {hs : List (Op × Out)} {t : Tbl} (hnd : rs.Nodup) (h0 : 0 ∉ rs)
    (hh : Hist (create ci rs) hs t) :
    (createJson t = none ↔ none ∈ (view t).names) ∧ (none ∈ (view t).names → ∀ fl, writeJson t fl = some none) := by
  obtain ⟨hi, _, _⟩ := hist_sound (Inv.create ci hnd h0) hh
  suffices h : createJson t = none ↔ none ∈ (view t).names by
    refine ⟨h, fun hn fl => ?_⟩
    unfold writeJson
    rw [h.mpr hn]
  unfold createJson
  split
  · rename_i hu
    refine ⟨fun _ => ?_, fun _ => rfl⟩
    exact Classical.byContradiction fun h => not_unnamed hi h hu
  · rename_i hu
    refine ⟨fun h => by simp at h, fun h => absurd ((unnamed_iff t).mpr ⟨none, h, .inl rfl⟩) hu⟩

theorem ok_object {fl : Json.WFlags} : ∀ {o : List (Bytes × Bytes)}, (∀ p ∈ o, Json.OkKey p.1 ∧ Json.OkStr fl p.2) →
    Json.OkMembers fl (o.map fun p => (p.1, Json.str p.2))
  | [], _ => by simp [Json.OkMembers]
  | p :: o, h => by
    rw [List.map_cons, Json.OkMembers, Json.OkJson]
    exact ⟨(h p (by simp)).1, (h p (by simp)).2, ok_object fun q hq => h q (List.mem_cons_of_mem _ hq)⟩

theorem ok_document {fl : Json.WFlags} : ∀ {os : List (List (Bytes × Bytes))},
    (∀ o ∈ os, (∀ p ∈ o, Json.OkKey p.1 ∧ Json.OkStr fl p.2) ∧ (o.map (·.1)).Nodup) → Json.OkElems fl (os.map object)
  | [], _ => by simp [Json.OkElems]
  | o :: os, h => by
    rw [List.map_cons, Json.OkElems, object, Json.OkJson]
    refine ⟨⟨ok_object (h o (by simp)).1, ?_⟩, ok_document fun q hq => h q (List.mem_cons_of_mem _ hq)⟩
    rw [List.map_map]
    exact (h o (by simp)).2

/-- Any table written as JSON and loaded into a new table: the rows have the same values under the same names.

Partial: names and values must be ones that JSON text keeps (`OkKey`, `OkStr`, see C48 and `name_fails`), and if the new table
compares names without case then so must the one written.  Columns without any value are not there afterwards, and the others may
be in another order: see `columns_fails`. -/
theorem round_trip_partial {ci ci' : Bool} {rs rs' rs'' : List Nat} {hs : List (Op × Out)} {t : Tbl} (hnd : rs.Nodup) (h0 : 0 ∉ rs)
    (hh : Hist (create ci rs) hs t) (hnd' : rs'.Nodup) (h0' : 0 ∉ rs') (hnd'' : rs''.Nodup) (h0'' : 0 ∉ rs'')
    (hci : ci' = true → ci = true) {hd : List Bytes} (hn : (view t).names = hd.map some) (fl : Json.WFlags)
    (hkey : ∀ n ∈ hd, Json.OkKey n) (hval : ∀ r ∈ (view t).cells, ∀ v, some v ∈ r → Json.OkStr fl v)
    (hr'' : (view t).cells.length * (hd.length + 1) ≤ rs''.length)
    (hr' : (view t).cells.length * ((view t).cells.length * (hd.length + 1) + 1) ≤ rs'.length) (after : List UInt8) :
    ∃ text t', writeJson t fl = some (some text) ∧ loadJson (create ci' rs') rs'' after text = some (t', true) ∧
      (view t').cells.length = (view t).cells.length ∧ ∀ i n, look ci' (view t') i n = look ci' (view t) i n := by
  obtain ⟨hi, hc, _⟩ := hist_sound (Inv.create ci hnd h0) hh
  have hc : t.ci = ci := hc
  subst hc
  have hdis : Distinct ci' hd := distinct_weaken hci (names_distinct hi (by rw [← abs_view]; exact hn))
  have hcells : (view t).cells = (List.range t.rows.length).map (rowOf t) := rfl
  have hlen : (view t).cells.length = t.rows.length := by rw [hcells]; simp
  have hw : ∀ i, (rowOf t i).length = hd.length := by
    intro i
    have := congrArg List.length hn
    simpa [view, rowOf] using this
  have hmem : ∀ o ∈ objects t hd, ∃ i, i < t.rows.length ∧ o = members (hd.zip (rowOf t i)) := by
    intro o ho
    obtain ⟨i, hi, rfl⟩ := List.mem_map.mp ho
    exact ⟨i, List.mem_range.mp hi, rfl⟩
  have hin : ∀ o ∈ objects t hd, ∀ p ∈ o, p.1 ∈ hd ∧ ∃ r ∈ (view t).cells, some p.2 ∈ r := by
    intro o ho p hp
    obtain ⟨i, hi, rfl⟩ := hmem o ho
    have := List.of_mem_zip (mem_members.mp hp)
    exact ⟨this.1, rowOf t i, by rw [hcells]; exact List.mem_map.mpr ⟨i, List.mem_range.mpr hi, rfl⟩, this.2⟩
  have hnod : ∀ o ∈ objects t hd, (o.map (·.1)).Nodup := by
    intro o ho
    obtain ⟨i, hi, rfl⟩ := hmem o ho
    refine members_nodup ?_
    rw [show (hd.zip (rowOf t i)).map (·.1) = hd from List.map_fst_zip (by rw [hw]; omega)]
    exact distinct_nodup hdis
  have hsum : ∀ l : List Nat, ((l.map fun i => members (hd.zip (rowOf t i))).map fun o => o.length + 1).sum ≤ l.length * (hd.length + 1) := by
    intro l
    induction l with
    | nil => simp
    | cons i l ih =>
      have : (members (hd.zip (rowOf t i))).length ≤ hd.length := by
        refine Nat.le_trans (List.length_filterMap_le _ _) ?_
        rw [List.length_zip, hw]
        omega
      rw [List.map_cons, List.map_cons, List.sum_cons, List.length_cons, Nat.add_mul, Nat.one_mul]
      omega
  have hsum : ((objects t hd).map fun o => o.length + 1).sum ≤ (view t).cells.length * (hd.length + 1) := by
    have := hsum (List.range t.rows.length)
    rw [List.length_range] at this
    rw [hlen]
    exact this
  have hol : (objects t hd).length = (view t).cells.length := by rw [hlen]; simp [objects]
  have hcreate := createJson_eq hn (by
    have := not_unnamed hi (by rw [hn]; simp)
    simpa using this)
  obtain ⟨text, w1, w2⟩ := Json.json_roundtrip_partial fl { uniqueKeys := true } rfl (document (objects t hd))
    (by
      unfold document
      rw [Json.OkJson]
      exact ok_document fun o ho => ⟨fun p hp => by
        obtain ⟨h1, r, h2, h3⟩ := hin o ho p hp
        exact ⟨hkey _ h1, hval r h2 _ h3⟩, hnod o ho⟩) trivial true after
  obtain ⟨t', f1, f2, f3, f4, f5⟩ := load_inv (Inv.create ci' hnd' h0') (by simp [view, create]) hnd'' h0'' (os := objects t hd)
    (fun o ho p hp e => by
      have := (hin o ho p hp).1
      exact names_ne hi (n := some p.1) (by rw [← abs_view, hn]; exact List.mem_map.mpr ⟨_, this, rfl⟩) (by rw [e]))
    hnod (fun o ho p hp o' ho' p' hp' ha => distinct_eq hdis (hin o ho p hp).1 (hin o' ho' p' hp').1 ha)
    (Nat.le_trans hsum hr'')
    (by rw [hol]; exact Nat.le_trans (Nat.mul_le_mul_left _ (Nat.succ_le_succ hsum)) hr')
  have hz : (view (create ci' rs')).cells.length = 0 := rfl
  rw [hz, hol, Nat.zero_add] at f2
  refine ⟨text, t', ?_, ?_, f2, fun i n => ?_⟩
  · unfold writeJson
    rw [hcreate]
    exact w1
  · unfold loadJson
    rw [w2]
    exact f1
  · by_cases hlt : i < t.rows.length
    · have ho : (objects t hd)[i]? = some (members (hd.zip (rowOf t i))) := by
        unfold objects
        rw [List.getElem?_map, List.getElem?_range hlt]
        rfl
      have := f4 i _ ho n
      rw [hz, Nat.zero_add] at this
      have this : look ci' (view t') i n = member ci' (members (hd.zip (rowOf t i))) n := this
      have hrow : (view t).cells[i]? = some (rowOf t i) := by
        rw [hcells, List.getElem?_map, List.getElem?_range hlt]
        rfl
      rw [this, under_look hn hrow (hw i), member_members (zip_pairwise hd (rowOf t i) hdis)]
      rfl
    · have h1 : (view t).cells[i]? = none := List.getElem?_eq_none (by omega)
      have h2 : (view t').cells[i]? = none := List.getElem?_eq_none (by omega)
      unfold look
      rw [h1, h2]
      cases (view t').find ci' n <;> cases (view t).find ci' n <;> rfl

/-! ## A case -/

/-- Columns `a` and `b`, two rows. -/
private def tab : Tbl :=
  ((exec (create true [5, 6, 7, 8]) [.insCol 0 [97], .insCol 1 [98], .insRow 0, .insRow 1, .setAt 0 0 (some [120, 34]),
    .setAt 0 1 (some []), .setAt 1 1 (some [122])]).map (·.1)).getD (create true [])

private def many (n : Nat) : List Nat := (List.range n).map (· + 1)

/-- It is made by calls. -/
example : ∃ hs, Hist (create true [5, 6, 7, 8]) hs tab ∧ hs.length = 7 := by
  have h : ∀ t op t' out, Ok t.ci (view t) op → Lawful op → step t op = some (t', out) → ∀ hs t'', Hist t' hs t'' →
    Hist t ((op, out) :: hs) t'' := fun _ _ _ _ h1 h2 h3 _ _ h4 => .cons h1 h2 h3 h4
  exact ⟨_, h _ (.insCol 0 [97]) _ _ trivial trivial rfl _ _ (h _ (.insCol 1 [98]) _ _ trivial trivial rfl _ _
    (h _ (.insRow 0) _ _ trivial trivial rfl _ _ (h _ (.insRow 1) _ _ trivial trivial rfl _ _
    (h _ (.setAt 0 0 (some [120, 34])) _ _ trivial trivial rfl _ _ (h _ (.setAt 0 1 (some [])) _ _ trivial trivial rfl _ _
    (h _ (.setAt 1 1 (some [122])) _ _ trivial trivial rfl _ _ .nil)))))), rfl⟩

/-- It is written as `[{"a":"x\"","b":""},{"b":"z"}]`. -/
private def text : List UInt8 :=
  [91, 123, 34, 97, 34, 58, 34, 120, 92, 34, 34, 44, 34, 98, 34, 58, 34, 34, 125, 44, 123, 34, 98, 34, 58, 34, 122, 34, 125, 93]

example : writeJson tab {} = some (some text) := by decide +kernel

/-- And comes back. -/
example : (loadJson (create true (many 20)) (many 9) [0] text).map (fun r => (view r.1, r.2)) = some (view tab, true) := by
  decide +kernel

example : (view tab).names = [[97], [98]].map some ∧ Json.OkKey [97] ∧ Json.OkKey [98] ∧ Json.OkStr {} [120, 34] ∧
    (view tab).cells.length * ((view tab).cells.length * (2 + 1) + 1) ≤ (many 20).length ∧ (many 20).Nodup ∧ 0 ∉ many 20 := by
  refine ⟨by decide +kernel, ⟨[97], by decide +kernel⟩, ⟨[98], by decide +kernel⟩, ⟨[120, 34], by decide +kernel, ?_⟩, by decide +kernel,
    by decide +kernel, by decide +kernel⟩
  intro cp h
  simp only [List.mem_cons, List.not_mem_nil, or_false] at h
  rcases h with rfl | rfl
  · exact ⟨by decide +kernel, by decide, .inr (by decide)⟩
  · exact ⟨by decide +kernel, by decide, .inr (by decide)⟩

/-- The objects `{"b":"1","c":"2"}` and `{"d":"3"}` loaded into it. -/
example : (loadNode { tab with rs := many 20 |>.map (· + 10) } (many 9) (document [[([98], [49]), ([99], [50])], [([100], [51])]])).map
    (fun r => (view r.1, r.2)) =
    some (⟨[some [97], some [98], some [99], some [100]],
      [[some [120, 34], some [], none, none], [none, some [122], none, none], [none, some [49], some [50], none],
       [none, none, none, some [51]]]⟩, true) := by decide +kernel

/-- `[{"a":"1"},{"a":2}]` is refused as a whole. -/
example : loadJson tab (many 9) [0]
    [91, 123, 34, 97, 34, 58, 34, 49, 34, 125, 44, 123, 34, 97, 34, 58, 50, 125, 93] = some (tab, false) := by rfl

/-! ## Where the code does something else -/

/-- `[{"A":"x"},{"a":"y"}]` loaded into a table that compares names without case: the `x` is lost. -/
theorem case_fails : (loadNode (create true (many 20)) (many 9) (document [[([65], [120])], [([97], [121])]])).map
    (fun r => (view r.1, r.2)) = some (⟨[some [65]], [[none], [some [121]]]⟩, true) := by decide +kernel

/-- Columns `a`, `b` and `c`; there is a value under `b` in the first row, one under `a` in the second, and none under `c`. -/
private def wide : Tbl :=
  ((exec (create false [5, 6, 7, 8, 9]) [.insCol 0 [97], .insCol 1 [98], .insCol 2 [99], .insRow 0, .insRow 1, .setAt 0 1 (some [120]),
    .setAt 1 0 (some [121])]).map (·.1)).getD (create false [])

/-- A column without values is lost, and the others change places. -/
theorem columns_fails : (view wide).names = [some [97], some [98], some [99]] ∧
    ((createJson wide).bind (loadNode (create false (many 30)) (many 9))).map (fun r => (view r.1, r.2)) =
      some (⟨[some [98], some [97]], [[some [120], none], [none, some [121]]]⟩, true) := by decide +kernel

/-- A column named `a"b`. -/
private def quote : Tbl :=
  ((exec (create false [5, 6]) [.insCol 0 [97, 34, 98], .insRow 0, .setAt 0 0 (some [120])]).map (·.1)).getD (create false [])

/-- What is written for it, `[{"a"b":"x"}]`, is not JSON, and is refused. -/
theorem name_fails :
    writeJson quote {} = some (some [91, 123, 34, 97, 34, 98, 34, 58, 34, 120, 34, 125, 93]) ∧
    loadJson (create false (many 9)) (many 9) [0] [91, 123, 34, 97, 34, 98, 34, 58, 34, 120, 34, 125, 93] =
      some (create false (many 9), false) := ⟨by decide +kernel, by rfl⟩

end Verif.TableJson
