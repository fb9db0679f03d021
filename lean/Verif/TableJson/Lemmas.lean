import Verif.TableJson.Model
import Verif.TableJson.Spec
import Verif.TableMerge.Props

/-!
# Lemmas about tables as JSON
-/

namespace Verif.TableJson
open Verif Verif.Table Verif.TableCsv Verif.TableMerge
open Verif.Json (Json)

theorem alike_trans {ci : Bool} {a b c : Bytes} (h : Alike ci a b) (k : Alike ci b c) : Alike ci a c := h.trans k

theorem find?_congr' {α : Type} {p q : α → Bool} : ∀ {l : List α}, (∀ x ∈ l, p x = q x) → l.find? p = l.find? q
  | [], _ => rfl
  | x :: l, h => by
    rw [List.find?_cons, List.find?_cons, h x (by simp), find?_congr' fun y hy => h y (List.mem_cons_of_mem _ hy)]

theorem under_congr {ci ci' : Bool} {hd : List Bytes} {r : List (Option Bytes)} {n m : Bytes}
    (h : ∀ k ∈ hd, Alike ci k n ↔ Alike ci' k m) : under ci hd r n = under ci' hd r m := by
  unfold under
  rw [find?_congr' fun p hp => ?_]
  rw [decide_eq_decide]
  exact h p.1 (List.of_mem_zip (a := p.1) (b := p.2) hp).1

theorem under_none {ci : Bool} {hd : List Bytes} {r : List (Option Bytes)} {n : Bytes} (h : ∀ k ∈ hd, ¬ Alike ci k n) :
    under ci hd r n = none := by
  unfold under
  have : (hd.zip r).find? (fun p => decide (Alike ci p.1 n)) = none := by
    rw [List.find?_eq_none]
    intro p hp
    simp [h p.1 (List.of_mem_zip (a := p.1) (b := p.2) hp).1]
  rw [this]
  rfl

theorem under_member (ci : Bool) (o : List (Bytes × Bytes)) (n : Bytes) :
    under ci (o.map (·.1)) (o.map fun p => some p.2) n = member ci o n := by
  unfold under member
  rw [List.zip_map', List.find?_map]
  cases h : o.find? ((fun p : Bytes × Option Bytes => decide (Alike ci p.1 n)) ∘ fun p => (p.1, some p.2)) with
  | none =>
    have h' : o.find? (fun p => decide (Alike ci p.1 n)) = none := h
    rw [h']
    rfl
  | some p =>
    have h' : o.find? (fun p => decide (Alike ci p.1 n)) = some p := h
    rw [h']
    rfl

/-- The value of a grid by position and by pairs. -/
theorem under_find (ci : Bool) (n : Bytes) : ∀ (hd : List Bytes) (r : List (Option Bytes)), r.length = hd.length →
    under ci hd r n = (((hd.map some).findIdx? fun m => m.any fun m => decide (Alike ci m n)).bind fun j => r[j]?).bind id
  | [], [], _ => rfl
  | [], _ :: _, h => by simp at h
  | _ :: _, [], h => by simp at h
  | k :: hd, v :: r, h => by
    have ih := under_find ci n hd r (by simpa using h)
    unfold under at ih ⊢
    rw [List.map_cons, List.findIdx?_cons, List.zip_cons_cons, List.find?_cons]
    by_cases ha : Alike ci k n
    · simp [ha]
    · simp only [ha, decide_false, Option.any_some, Bool.false_eq_true, if_false]
      rw [ih]
      cases (hd.map some).findIdx? fun m => m.any fun m => decide (Alike ci m n) <;> rfl

theorem under_look {ci : Bool} {g : Grid} {hd : List Bytes} {i : Nat} {r : List (Option Bytes)} (hn : g.names = hd.map some)
    (hr : g.cells[i]? = some r) (hl : r.length = hd.length) (n : Bytes) : look ci g i n = under ci hd r n := by
  rw [under_find ci n hd r hl]
  unfold look Grid.find
  rw [hn, hr]
  rfl

/-- Rows that were there. -/
theorem look_old {ci : Bool} {g : Grid} (hrect : ∀ r ∈ g.cells, r.length = g.names.length) {hd : List Bytes}
    {rows : List (List (Option Bytes))} {i : Nat} (hi : i < g.cells.length) (n : Bytes) :
    look ci (joined ci g hd rows) i n = look ci g i n := by
  have hrow : (joined ci g hd rows).cells[i]? = some (g.cells[i] ++ (fresh ci g hd).map fun _ => none) := by
    unfold joined
    dsimp only
    rw [List.getElem?_append_left (by simpa using hi), List.getElem?_map, List.getElem?_eq_getElem hi]
    rfl
  have hw : g.cells[i].length = g.names.length := hrect _ (List.getElem_mem hi)
  unfold look
  rw [hrow, List.getElem?_eq_getElem hi]
  cases hf : g.find ci n with
  | some j =>
    have : (joined ci g hd rows).find ci n = some j := find_left hf
    rw [this]
    simp only [Option.bind_some]
    rw [List.getElem?_append_left (by rw [hw]; exact find_lt hf)]
  | none =>
    cases hj : (joined ci g hd rows).find ci n with
    | none => rfl
    | some j =>
      have hge : g.names.length ≤ j := by
        refine Nat.le_of_not_lt fun hlt => ?_
        unfold Grid.find at hf hj
        rw [List.findIdx?_eq_some_iff_getElem] at hj
        rw [List.findIdx?_eq_none_iff] at hf
        obtain ⟨h1, h2, _⟩ := hj
        have e : (joined ci g hd rows).names[j] = g.names[j] := by
          exact List.getElem_append_left hlt
        rw [e, hf _ (List.getElem_mem hlt)] at h2
        cases h2
      simp only [Option.bind_some, Option.bind_none]
      rw [List.getElem?_append_right (by omega), List.getElem?_map]
      cases (fresh ci g hd)[j - g.cells[i].length]? <;> rfl

/-- Rows that are new. -/
theorem look_new {ci : Bool} {g : Grid} {hd : List Bytes} {rows : List (List (Option Bytes))} {i : Nat} {r : List (Option Bytes)}
    (hr : rows[i]? = some r) (n : Bytes) : look ci (joined ci g hd rows) (g.cells.length + i) n = under ci hd r n := by
  have hrow : (joined ci g hd rows).cells[g.cells.length + i]? =
      some ((joined ci g hd rows).names.map fun n => n.bind (under ci hd r)) := by
    unfold joined
    dsimp only
    rw [List.getElem?_append_right (by simp), List.getElem?_map]
    simp [hr]
  unfold look
  rw [hrow]
  cases hf : (joined ci g hd rows).find ci n with
  | none =>
    refine (under_none fun k hk ha => ?_).symm
    have h1 : (joined ci g hd rows).find ci k ≠ none := fresh_find hk
    refine h1 ?_
    unfold Grid.find at hf ⊢
    rw [List.findIdx?_eq_none_iff] at hf ⊢
    intro x hx
    have := hf x hx
    cases x with
    | none => rfl
    | some x =>
      simp only [Option.any_some, decide_eq_false_iff_not] at this ⊢
      exact fun h => this (alike_trans h ha)
  | some j =>
    unfold Grid.find at hf
    rw [List.findIdx?_eq_some_iff_getElem] at hf
    obtain ⟨h1, h2, _⟩ := hf
    simp only [Option.bind_some]
    rw [List.getElem?_map, List.getElem?_eq_getElem h1]
    cases hm : (joined ci g hd rows).names[j] with
    | none => rw [hm] at h2; cases h2
    | some m =>
      rw [hm] at h2
      have h2 : Alike ci m n := by simpa using h2
      exact under_congr fun k _ => ⟨fun h => alike_trans h h2, fun h => alike_trans h (alike_symm h2)⟩

theorem look_cells_len (ci : Bool) (g : Grid) (hd : List Bytes) (rows : List (List (Option Bytes))) :
    (joined ci g hd rows).cells.length = g.cells.length + rows.length := by simp [joined]

/-! ## Loading -/

theorem loadObj_eq (row : Nat) : ∀ (o : List (Bytes × Bytes)) {t : Tbl}, Inv t → row < t.rows.length → (∀ p ∈ o, p.1 ≠ []) →
    o.length ≤ t.rs.length → loadObj row (o.map fun p => (p.1, .str p.2)) t =
      (setCells row (o.map fun p => (some p.1, some p.2)) t).map (·, true)
  | [], t, _, _, _, _ => rfl
  | (k, v) :: o, t, h, hr, hne, hl => by
    rw [List.length_cons] at hl
    obtain ⟨⟨t1, b⟩, e, hrs⟩ := set_total h (row := row) (name := k) (v := some v) (fl := ⟨true, false⟩) (by omega)
    obtain ⟨i1, i2, i3, i4, i5⟩ := set_spec h e
    dsimp only at hrs
    have hb : b = true := by
      unfold Grid.setCell at i5
      have hk : k ≠ [] := hne (k, v) (by simp)
      rw [if_neg (by rw [abs_nrows]; simp [hk]; omega)] at i5
      cases hf : (abs t).find t.ci k with
      | some j => rw [hf] at i5; exact (Prod.mk.inj i5).2.symm
      | none => rw [hf] at i5; simp at i5; exact i5.2
    rw [List.map_cons, List.map_cons, loadObj, setCells, Option.getD_some, e, Option.bind_some, Option.bind_some, if_pos hb]
    exact loadObj_eq row o i1 (i3 ▸ hr) (fun p hp => hne p (List.mem_cons_of_mem _ hp)) (by dsimp only; omega)

/-- The random numbers an array uses. -/
def cost : List (List (Bytes × Bytes)) → Nat
  | [] => 0
  | o :: os => o.length + 1 + cost os

theorem loadArr_spec : ∀ (os : List (List (Bytes × Bytes))) {t : Tbl}, Inv t → t.ci = false → (∀ o ∈ os, ∀ p ∈ o, p.1 ≠ []) →
    (∀ o ∈ os, (o.map (·.1)).Nodup) → cost os ≤ t.rs.length →
    ∃ t', loadArr (os.map object) t = some (t', true) ∧ Inv t' ∧ t'.ci = false ∧
      (abs t').cells.length = (abs t).cells.length + os.length ∧
      (∀ i, i < (abs t).cells.length → ∀ n, look false (abs t') i n = look false (abs t) i n) ∧
      (∀ i o, os[i]? = some o → ∀ n, look false (abs t') ((abs t).cells.length + i) n = member false o n) ∧
      (abs t').names.length + os.length ≤ (abs t).names.length + cost os ∧
      (∀ n, n ∈ (abs t').names ↔ n ∈ (abs t).names ∨ ∃ o ∈ os, ∃ p ∈ o, n = some p.1)
  | [], t, h, hc, _, _, _ => ⟨t, rfl, h, hc, rfl, fun _ _ _ => rfl, fun i o ho => by simp at ho, Nat.le_refl _, fun n => by simp⟩
  | o :: os, t, h, hc, hne, hnd, hl => by
    rw [cost] at hl
    have hd : Distinct t.ci (o.map (·.1)) := by
      rw [hc]
      exact hnd o (by simp)
    obtain ⟨t1, x, t2, e1, e2, e3, e4, e5, e6⟩ := row_spec (hd := o.map (·.1)) (r := o.map fun p => some p.2) (by simp) h
      (fun n hn => by obtain ⟨p, hp, rfl⟩ := List.mem_map.mp hn; exact hne o (by simp) p hp) hd (by simp; omega)
    rw [hc] at e6
    rw [List.length_map] at e5
    obtain ⟨id, -, i1, i2, i3, i4, i5, i6, i7, i8⟩ := insRow_spec h (Nat.le_refl _) e1
    have hz : ((o.map (·.1)).zip (o.map fun p => some p.2)).map (fun p : Bytes × Option Bytes => (some p.1, p.2)) =
        o.map fun p => (some p.1, some p.2) := by
      rw [List.zip_map', List.map_map]
      rfl
    rw [hz] at e2
    have hobj := loadObj_eq t.rows.length o i1 (by rw [i7]; simp) (fun p hp => hne o (by simp) p hp)
      (by have := insRow_rs h e1; omega)
    rw [e2] at hobj
    obtain ⟨t', f1, f2, f3, f4, f5, f6, f7, f8⟩ := loadArr_spec os e3 (e4.trans hc) (fun o ho => hne o (List.mem_cons_of_mem _ ho))
      (fun o ho => hnd o (List.mem_cons_of_mem _ ho)) (by omega)
    have hlen : (abs t2).cells.length = (abs t).cells.length + 1 := by rw [e6, look_cells_len]; rfl
    refine ⟨t', ?_, f2, f3, by rw [f4, hlen, List.length_cons]; omega, ?_, ?_, ?_, ?_⟩
    · rw [List.map_cons, object, loadArr, e1, Option.bind_some]
      dsimp only
      rw [hobj]
      exact f1
    · intro i hi n
      rw [f5 i (by omega), e6, look_old (abs_rect t) hi]
    · intro i o' ho n
      cases i with
      | zero =>
        simp at ho
        subst ho
        rw [Nat.add_zero, f5 _ (by omega), e6]
        have := look_new (ci := false) (g := abs t) (hd := o.map (·.1)) (rows := [o.map fun p => some p.2]) (i := 0)
          (r := o.map fun p => some p.2) rfl n
        rw [Nat.add_zero] at this
        rw [this, under_member]
      | succ i =>
        rw [List.getElem?_cons_succ] at ho
        have := f6 i o' ho n
        rw [hlen] at this
        rw [← this]
        congr 1
        omega
    · have : (abs t2).names.length ≤ (abs t).names.length + o.length := by
        rw [e6, joined]
        simp only [List.length_append, List.length_map]
        have := List.length_filter_le (fun n => ((abs t).find false n).isNone) (o.map (·.1))
        rw [List.length_map] at this
        unfold fresh
        omega
      rw [List.length_cons, cost]
      omega
    · intro n
      rw [f8, e6]
      unfold joined
      dsimp only
      rw [List.mem_append]
      constructor
      · rintro ((h1 | h1) | ⟨o', ho, h1⟩)
        · exact .inl h1
        · obtain ⟨k, hk, rfl⟩ := List.mem_map.mp h1
          obtain ⟨p, hp, rfl⟩ := List.mem_map.mp (List.mem_filter.mp hk).1
          exact .inr ⟨o, by simp, p, hp, rfl⟩
        · exact .inr ⟨o', List.mem_cons_of_mem _ ho, h1⟩
      · rintro (h1 | ⟨o', ho, p, hp, rfl⟩)
        · exact .inl (.inl h1)
        · rcases List.mem_cons.mp ho with rfl | ho
          · cases hf : (abs t).find false p.1 with
            | none =>
              refine .inl (.inr (List.mem_map.mpr ⟨p.1, ?_, rfl⟩))
              unfold fresh
              rw [List.mem_filter]
              exact ⟨List.mem_map.mpr ⟨p, hp, rfl⟩, by simp [hf]⟩
            | some j =>
              refine .inl (.inl ?_)
              unfold Grid.find at hf
              rw [List.findIdx?_eq_some_iff_getElem] at hf
              obtain ⟨h1, h2, _⟩ := hf
              cases hm : (abs t).names[j] with
              | none => rw [hm] at h2; cases h2
              | some m =>
                rw [hm] at h2
                have h2 : Alike false m p.1 := by simpa using h2
                have h2 : m = p.1 := h2
                rw [← h2, ← hm]
                exact List.getElem_mem h1
          · exact .inr ⟨o', ho, p, hp, rfl⟩

theorem cost_eq : ∀ os : List (List (Bytes × Bytes)), cost os = (os.map fun o => o.length + 1).sum
  | [] => rfl
  | o :: os => by rw [cost, cost_eq os]; simp

/-! ## Writing -/

/-- The members made of a row. -/
def members (l : List (Bytes × Option Bytes)) : List (Bytes × Bytes) := l.filterMap fun p => p.2.map fun v => (p.1, v)

theorem mem_members {l : List (Bytes × Option Bytes)} {p : Bytes × Bytes} : p ∈ members l ↔ (p.1, some p.2) ∈ l := by
  unfold members
  rw [List.mem_filterMap]
  constructor
  · rintro ⟨⟨k, v⟩, h, e⟩
    obtain ⟨w, e1, rfl⟩ := Option.map_eq_some_iff.mp e
    dsimp only at e1
    rw [e1] at h
    exact h
  · intro h
    exact ⟨_, h, rfl⟩

theorem member_members {ci : Bool} {n : Bytes} : ∀ {l : List (Bytes × Option Bytes)}, l.Pairwise (fun a b => ¬ Alike ci a.1 b.1) →
    member ci (members l) n = (l.find? fun p => decide (Alike ci p.1 n)).bind (·.2)
  | [], _ => rfl
  | (k, v) :: l, h => by
    obtain ⟨h1, h2⟩ := List.pairwise_cons.mp h
    have ih := member_members (n := n) h2
    unfold member at ih ⊢
    rw [List.find?_cons]
    cases v with
    | some v =>
      have e : members ((k, some v) :: l) = (k, v) :: members l := rfl
      rw [e, List.find?_cons]
      by_cases ha : Alike ci k n
      · simp [ha]
      · simp only [ha, decide_false]
        exact ih
    | none =>
      have e : members ((k, none) :: l) = members l := rfl
      rw [e]
      by_cases ha : Alike ci k n
      · simp only [ha, decide_true, Option.bind_some]
        have : (members l).find? (fun p => decide (Alike ci p.1 n)) = none := by
          rw [List.find?_eq_none]
          intro p hp
          have := h1 _ (mem_members.mp hp)
          simp only [decide_eq_true_eq]
          exact fun h => this (alike_trans ha (alike_symm h))
        rw [this]
        rfl
      · simp only [ha, decide_false]
        exact ih

theorem members_nodup : ∀ {l : List (Bytes × Option Bytes)}, (l.map (·.1)).Nodup → ((members l).map (·.1)).Nodup
  | [], _ => by simp [members]
  | (k, v) :: l, h => by
    rw [List.map_cons, List.nodup_cons] at h
    have ih := members_nodup h.2
    cases v with
    | none => exact ih
    | some v =>
      have e : members ((k, some v) :: l) = (k, v) :: members l := rfl
      rw [e, List.map_cons, List.nodup_cons]
      refine ⟨fun hm => h.1 ?_, ih⟩
      obtain ⟨p, hp, e⟩ := List.mem_map.mp hm
      exact List.mem_map.mpr ⟨_, mem_members.mp hp, e⟩

/-- The objects of the rows of a table. -/
def objects (t : Tbl) (hd : List Bytes) : List (List (Bytes × Bytes)) :=
  (List.range t.rows.length).map fun i => members (hd.zip (rowOf t i))

theorem createJson_eq {t : Tbl} {hd : List Bytes} (hn : (view t).names = hd.map some) (hu : unnamed t = false) :
    createJson t = some (document (objects t hd)) := by
  unfold createJson document objects
  rw [if_neg (by rw [hu]; simp), List.map_map]
  congr 3
  funext i
  rw [pairs_eq hn, Function.comp_apply, object, members, List.map_filterMap, List.filterMap_map]
  congr 2
  funext p
  cases h : p.2 <;> simp [h]

theorem distinct_eq {ci : Bool} {hd : List Bytes} (h : Distinct ci hd) {a b : Bytes} (ha : a ∈ hd) (hb : b ∈ hd) (hab : Alike ci a b) : a = b := by
  obtain ⟨i, hi, rfl⟩ := List.getElem_of_mem ha
  obtain ⟨j, hj, rfl⟩ := List.getElem_of_mem hb
  have h := List.pairwise_iff_getElem.mp h
  rcases Nat.lt_trichotomy i j with hij | hij | hij
  · exact absurd hab (h i j hi hj hij)
  · subst hij; rfl
  · exact absurd (alike_symm hab) (h j i hj hi hij)

theorem distinct_nodup {ci : Bool} {hd : List Bytes} (h : Distinct ci hd) : hd.Nodup :=
  List.Pairwise.imp (fun {a b} hab (e : a = b) => hab (e ▸ alike_refl ci a)) h

end Verif.TableJson
