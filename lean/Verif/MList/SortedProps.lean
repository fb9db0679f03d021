import Verif.MList.SortedLemmas
/- Properties C06 (sorted lists), C08 (remove_duplicates), C53 (set lists). -/
namespace Verif.MList

set_option linter.unusedSectionVars false

variable {α : Type _} [DecidableEq α] {cmp : α → α → Int}

/-- Calls on a list that may be sorted and may be a set. -/
inductive SOp (α : Type _) where
  | insert (v : α)
  | insertAt (v : α) (i : Nat)
  | insertBegin
  | insertEnd
  | takeAt (i : Nat)
  | removeAt (i : Nat)
  | removeRange (s e : Nat)
  | removeVal (v : α) (all : Bool)
  | replaceAt (v : α) (i : Nat)

inductive SRes (α : Type _) where
  | unit
  | bool (b : Bool)
  | num (n : Nat)
  | val (v : Option α)
deriving DecidableEq

def sstep (cmp : α → α → Int) (d : L α) : SOp α → Option (SRes α × L α)
  | .insert v => (insert cmp d v).map fun (b, d) => (.bool b, d)
  | .insertAt v i => (insertAt cmp d v i).map fun (b, d) => (.bool b, d)
  | .insertBegin => some (.unit, insertBegin d)
  | .insertEnd => (insertEnd cmp d).map fun d => (.unit, d)
  | .takeAt i => (takeAt d i).map fun (v, d) => (.val v, d)
  | .removeAt i => (removeAt d i).map fun (b, d) => (.bool b, d)
  | .removeRange s e => (removeRange d s e).map fun (b, d) => (.bool b, d)
  | .removeVal v all => (removeVal cmp d v all).map fun (n, d) => (.num n, d)
  | .replaceAt v i => (replaceAt d v i).map fun (b, d) => (.bool b, d)

def srun (cmp : α → α → Int) (d : L α) : List (SOp α) → Option (List (SRes α) × L α)
  | [] => some ([], d)
  | op :: ops =>
    match sstep cmp d op with
    | none => none
    | some (r, d) => (srun cmp d ops).map fun (rs, d) => (r :: rs, d)

/-! ### Specification -/

/-- How a list was created. -/
structure Cfg where
  sorted : Bool
  stable : Bool
  setVal : Bool
  neverShrink : Bool

/-- What the user sees: the sequence and whether a grouped insertion is open. -/
structure View (α : Type _) where
  l : List α
  group : Bool

/-- Sorting is in force. -/
def Active (c : Cfg) (w : View α) : Prop := c.sorted = true ∧ w.group = false

/-- A set refuses the value. -/
def Refused (cmp : α → α → Int) (c : Cfg) (w : View α) (v : α) : Prop := c.setVal = true ∧ ∃ x ∈ w.l, cmp v x = 0

/-- What a call may do to the sequence.  Which of several equal elements is affected is left open on a sorted list. -/
def SSpec (cmp : α → α → Int) (c : Cfg) (w : View α) : SOp α → SRes α → View α → Prop
  | .insert v, r, w' =>
    (Refused cmp c w v ∧ r = .bool false ∧ w' = w) ∨
    (¬ Refused cmp c w v ∧ r = .bool true ∧ w'.group = w.group ∧
      ∃ i, i ≤ w.l.length ∧ w'.l = w.l.take i ++ v :: w.l.drop i ∧ (¬ Active c w → i = w.l.length))
  | .insertAt v i, r, w' =>
    (Active c w ∧ r = .bool false ∧ w' = w) ∨
    (¬ Active c w ∧ Refused cmp c w v ∧ r = .bool false ∧ w' = w) ∨
    (¬ Active c w ∧ ¬ Refused cmp c w v ∧ r = .bool true ∧ w'.group = w.group ∧
      (i ≤ w.l.length → w'.l = w.l.take i ++ v :: w.l.drop i) ∧
      ∃ j, j ≤ w.l.length ∧ w'.l = w.l.take j ++ v :: w.l.drop j)
  | .insertBegin, r, w' => r = .unit ∧ w' = { w with group := true }
  | .insertEnd, r, w' =>
    r = .unit ∧ w'.group = false ∧
      (if c.sorted ∧ w.group then
        w'.l.Perm w.l ∧
          (c.stable = true → ∀ k, w'.l.filter (fun x => cmp k x = 0) = w.l.filter (fun x => cmp k x = 0))
      else w'.l = w.l)
  | .takeAt i, r, w' => r = .val w.l[i]? ∧ w' = { w with l := w.l.eraseIdx i }
  | .removeAt i, r, w' => r = .bool (i < w.l.length) ∧ w' = { w with l := w.l.eraseIdx i }
  | .removeRange s e, r, w' =>
    r = .bool (s ≤ e ∧ s < w.l.length) ∧
      w' = { w with l := if s ≤ e ∧ s < w.l.length then w.l.take s ++ w.l.drop (e + 1) else w.l }
  | .removeVal v true, r, w' =>
    r = .num (w.l.countP (fun x => decide (cmp v x = 0))) ∧
      w' = { w with l := w.l.filter (fun x => decide (cmp v x ≠ 0)) }
  | .removeVal v false, r, w' =>
    (r = .num 0 ∧ w' = w ∧ ∀ x ∈ w.l, cmp v x ≠ 0) ∨
    (r = .num 1 ∧ ∃ i, ∃ h : i < w.l.length, cmp v w.l[i] = 0 ∧ w' = { w with l := w.l.eraseIdx i })
  | .replaceAt v i, r, w' =>
    (Active c w ∧ r = .bool false ∧ w' = w) ∨
    (¬ Active c w ∧ r = .bool (i < w.l.length) ∧ w' = { w with l := w.l.set i v })

inductive SSpecRun (cmp : α → α → Int) (c : Cfg) : View α → List (SOp α) → List (SRes α) → View α → Prop
  | nil (w) : SSpecRun cmp c w [] [] w
  | cons {w w' w'' op ops r rs} : SSpec cmp c w op r w' → SSpecRun cmp c w' ops rs w'' →
      SSpecRun cmp c w (op :: ops) (r :: rs) w''

/-! ### Simulation -/

structure SSim (cmp : α → α → Int) (c : Cfg) (d : L α) (w : View α) : Prop where
  repr : Repr d w.l
  stack : d.stack = false
  sorted : d.sorted = c.sorted
  stable : d.stable = c.stable
  multi : d.multi = w.group
  setVal : d.setVal = c.setVal
  setPtr : d.setPtr = false
  ord : Active c w → Sort.SortedBy cmp w.l

theorem SSim.of {c : Cfg} {d d' : L α} {w : View α} {l' : List α} (h : SSim cmp c d w) (hf : flags d' = flags d)
    (hr : Repr d' l') (ho : Active c w → Sort.SortedBy cmp l') : SSim cmp c d' { w with l := l' } := by
  obtain ⟨h1, h2, h3, h4, _, h6, h7⟩ := flags_eq hf
  exact ⟨hr, h1.trans h.stack, h2.trans h.sorted, h3.trans h.stable, h4.trans h.multi, h6.trans h.setVal,
    h7.trans h.setPtr, ho⟩

theorem SSim.active {c : Cfg} {d : L α} {w : View α} (h : SSim cmp c d w) :
    (d.sorted && !d.multi) = true ↔ Active c w := by
  simp [Active, h.sorted, h.multi]

theorem sublist_sorted {l l' : List α} (h : l'.Sublist l) (hs : Sort.SortedBy cmp l) : Sort.SortedBy cmp l' :=
  List.Pairwise.sublist h hs

theorem ssim_index (hc : LawfulCmp cmp) {c : Cfg} {d : L α} {w : View α} (h : SSim cmp c d w) (v : α) :
    ∃ r, indexOf cmp d v false = some r ∧ (r = none ↔ ∀ x ∈ w.l, cmp v x ≠ 0) ∧
      (∀ k, r = some k → ∃ h : k < w.l.length, cmp v w.l[k] = 0) :=
  indexOf_spec hc h.repr h.stack (fun h1 h2 => h.ord ⟨by rw [← h.sorted]; exact h1, by rw [← h.multi]; exact h2⟩) v

/-- The guarded insertion: refused by a set, or placed at `min idx len`. -/
theorem ssim_insertAtInt (hc : LawfulCmp cmp) {c : Cfg} {d : L α} {w : View α} (h : SSim cmp c d w) (v : α) (idx : Nat) :
    (Refused cmp c w v ∧ insertAtInt cmp d v idx = some (false, d)) ∨
    (¬ Refused cmp c w v ∧ ∃ d', insertAtInt cmp d v idx = some (true, d') ∧
      Repr d' (w.l.insertIdx (min idx w.l.length) v) ∧ flags d' = flags d) := by
  obtain ⟨d', h1, h2, h3⟩ := insertRaw_spec h.repr v idx
  unfold insertAtInt
  rw [h.setVal, h.setPtr]
  cases hsv : c.setVal with
  | false =>
    right
    exact ⟨fun hr => by have := hr.1; simp [hsv] at this, d', by simp [h1], h2, h3⟩
  | true =>
    simp only [Bool.or_false, if_true]
    obtain ⟨r, h4, h5, h6⟩ := ssim_index hc h v
    rw [h4]
    cases r with
    | none =>
      right
      refine ⟨?_, d', by simp [h1], h2, h3⟩
      rintro ⟨_, x, hx, hx0⟩
      exact (h5.1 rfl) x hx hx0
    | some k =>
      left
      obtain ⟨h7, h8⟩ := h6 k rfl
      exact ⟨⟨hsv, _, List.getElem_mem h7, h8⟩, by simp⟩

theorem convertIdxInsert_list {d : L α} {l : List α} (hr : Repr d l) (hst : d.stack = false) {i : Nat}
    (hi : i ≤ l.length) : convertIdxInsert d i = i := by
  have h2 := hr.len
  unfold convertIdxInsert
  by_cases h0 : d.elements = 0
  · rw [if_pos h0]; omega
  · rw [if_neg h0]
    simp only [hst, Bool.not_false, if_true]
    rw [convertIdxAt_list h0 hst, if_neg (by omega)]

theorem ssim_step (hc : LawfulCmp cmp) {c : Cfg} {d : L α} {w : View α} (h : SSim cmp c d w)
    (hl : w.l.length < 2 ^ 64) (op : SOp α) :
    ∃ r d' w', sstep cmp d op = some (r, d') ∧ SSpec cmp c w op r w' ∧ SSim cmp c d' w' ∧
      w'.l.length ≤ w.l.length + 1 := by
  have he := h.repr.len
  have hact := h.active
  have hconv : ∀ {i}, i < w.l.length → convertIdxAt d i = i := by
    intro i hi
    rw [convertIdxAt_list (by omega) h.stack, if_neg (by omega)]
  have herase : ∀ i, (w.l.eraseIdx i).Sublist w.l := fun i => List.eraseIdx_sublist _ _
  cases op with
  | insert v =>
    have key : ∀ i, i ≤ w.l.length → (¬ Active c w → i = w.l.length) →
        (Active c w → Sort.SortedBy cmp (w.l.take i ++ v :: w.l.drop i)) → insertIdx cmp d v = some i →
        ∃ r d' w', sstep cmp d (.insert v) = some (r, d') ∧ SSpec cmp c w (.insert v) r w' ∧ SSim cmp c d' w' ∧
          w'.l.length ≤ w.l.length + 1 := by
      intro i hi hna hord hix
      have hci := convertIdxInsert_list h.repr h.stack hi
      rcases ssim_insertAtInt hc h v i with ⟨h1, h2⟩ | ⟨h1, d', h2, h3, h4⟩
      · exact ⟨.bool false, d, w, by simp [sstep, insert, hix, hci, h2], Or.inl ⟨h1, rfl, rfl⟩, h, by omega⟩
      · rw [Nat.min_eq_left hi, insertIdx_eq v hi] at h3
        refine ⟨.bool true, d', { w with l := w.l.take i ++ v :: w.l.drop i },
          by simp [sstep, insert, hix, hci, h2], Or.inr ⟨h1, rfl, rfl, i, hi, rfl, hna⟩, h.of h4 h3 hord, ?_⟩
        simp; omega
    by_cases ha : Active c w
    · obtain ⟨i, h1, h2, h3⟩ := Sort.insertIdx_sorted_partial hc w.l (h.ord ha) v c.stable
      refine key i h2 (fun hn => absurd ha hn) (fun _ => h3) ?_
      unfold insertIdx
      rw [if_pos (hact.2 ha), contents_spec h.repr, h.stable]
      simp [h1, convertIdxInsert_list h.repr h.stack h2]
    · refine key w.l.length (Nat.le_refl _) (fun _ => rfl) (fun hn => absurd hn ha) ?_
      unfold insertIdx
      rw [if_neg (fun hh => ha (hact.1 hh)), he, convertIdxInsert_list h.repr h.stack (Nat.le_refl _)]
  | insertAt v i =>
    by_cases ha : Active c w
    · refine ⟨.bool false, d, w, ?_, Or.inl ⟨ha, rfl, rfl⟩, h, by omega⟩
      simp only [sstep, insertAt]
      rw [if_pos (hact.2 ha)]; rfl
    · have hins : insertAt cmp d v i = insertAtInt cmp d v (convertIdxAt d i) := by
        unfold insertAt; rw [if_neg (fun hh => ha (hact.1 hh))]
      rcases ssim_insertAtInt hc h v (convertIdxAt d i) with ⟨h1, h2⟩ | ⟨h1, d', h2, h3, h4⟩
      · exact ⟨.bool false, d, w, by simp [sstep, hins, h2], Or.inr (Or.inl ⟨ha, h1, rfl, rfl⟩), h, by omega⟩
      · rw [insertIdx_eq v (Nat.min_le_right _ _)] at h3
        refine ⟨.bool true, d', ⟨w.l.take (min (convertIdxAt d i) w.l.length) ++ v ::
            w.l.drop (min (convertIdxAt d i) w.l.length), w.group⟩, by simp [sstep, hins, h2], Or.inr (Or.inr ⟨ha, h1, rfl, rfl, ?_,
          min (convertIdxAt d i) w.l.length, Nat.min_le_right _ _, rfl⟩), h.of h4 h3 (fun hh => absurd hh ha), ?_⟩
        · intro hi
          have : min (convertIdxAt d i) w.l.length = i := by
            by_cases h0 : d.elements = 0
            · rw [convertIdxAt_zero h0]; omega
            · rw [convertIdxAt_list h0 h.stack, if_neg (by omega)]; omega
          simp only [this]
        · simp; omega
  | insertBegin =>
    refine ⟨.unit, _, { w with group := true }, rfl, ⟨rfl, rfl⟩, ?_, by simp⟩
    exact ⟨⟨he, h.repr.bound, h.repr.alloc, h.repr.get⟩, h.stack, h.sorted, h.stable, rfl, h.setVal, h.setPtr,
      fun ha => by simp [Active] at ha⟩
  | insertEnd =>
    by_cases hg : w.group = true
    · have hm : d.multi = true := by rw [h.multi]; exact hg
      by_cases hs : c.sorted = true
      · obtain ⟨d', l', h1, h2, h3, h4, h5, h6⟩ := sortNow_spec hc h.repr (by rw [h.sorted]; exact hs)
        obtain ⟨f1, f2, f3, f4, f5, f6, f7⟩ := flags_eq h3
        refine ⟨.unit, { d' with multi := false }, { l := l', group := false },
          by simp [sstep, insertEnd, hm, h1], ⟨rfl, rfl, ?_⟩, ?_, by simp [h4.length_eq]⟩
        · rw [if_pos ⟨hs, hg⟩]
          exact ⟨h4, fun hst => h6 (by rw [h.stable]; exact hst)⟩
        · exact ⟨⟨h2.len, h2.bound, h2.alloc, h2.get⟩, f1.trans h.stack, f2.trans h.sorted, f3.trans h.stable, rfl,
            f6.trans h.setVal, f7.trans h.setPtr, fun _ => h5⟩
      · have hs' : d.sorted = false := by rw [h.sorted]; simpa using hs
        refine ⟨.unit, { d with multi := false }, { w with group := false },
          by simp [sstep, insertEnd, hm, sortNow, hs'], ⟨rfl, rfl, ?_⟩, ?_, by simp⟩
        · rw [if_neg (fun hh => hs hh.1)]
        · exact ⟨⟨he, h.repr.bound, h.repr.alloc, h.repr.get⟩, h.stack, h.sorted, h.stable, rfl, h.setVal, h.setPtr,
            fun ha => absurd ha.1 hs⟩
    · have hm : d.multi = false := by rw [h.multi]; simpa using hg
      refine ⟨.unit, d, w, by simp [sstep, insertEnd, hm], ⟨rfl, by simpa using hg, ?_⟩, h, by omega⟩
      rw [if_neg (fun hh => hg hh.2)]
  | takeAt i =>
    by_cases hi : i < w.l.length
    · obtain ⟨d', h1, h2, h3⟩ := takeAt_spec h.repr hl hi
      rw [hconv hi] at h1 h2
      refine ⟨.val w.l[i]?, d', { w with l := w.l.eraseIdx i }, by simp [sstep, h1], ⟨rfl, rfl⟩,
        h.of h3 h2 (fun ha => sublist_sorted (herase i) (h.ord ha)), ?_⟩
      have := (herase i).length_le
      simp only; omega
    · refine ⟨.val w.l[i]?, d, { w with l := w.l.eraseIdx i }, ?_, ⟨rfl, rfl⟩, ?_, ?_⟩
      · simp only [sstep]; rw [takeAt_oob h.repr (by omega), List.getElem?_eq_none (by omega)]; rfl
      · rw [List.eraseIdx_of_length_le (by omega)]; exact h
      · have := (herase i).length_le
        simp only; omega
  | removeAt i =>
    by_cases hi : i < w.l.length
    · obtain ⟨d', h1, h2, h3⟩ := removeAt_spec h.repr hl hi
      rw [hconv hi] at h2
      refine ⟨.bool (i < w.l.length), d', { w with l := w.l.eraseIdx i }, by simp [sstep, h1, hi], ⟨rfl, rfl⟩,
        h.of h3 h2 (fun ha => sublist_sorted (herase i) (h.ord ha)), ?_⟩
      have := (herase i).length_le
      simp only; omega
    · refine ⟨.bool (i < w.l.length), d, { w with l := w.l.eraseIdx i }, ?_, ⟨rfl, rfl⟩, ?_, ?_⟩
      · simp only [sstep]; rw [removeAt_oob h.repr (by omega)]; simp [hi]
      · rw [List.eraseIdx_of_length_le (by omega)]; exact h
      · have := (herase i).length_le
        simp only; omega
  | removeRange s e =>
    by_cases hse : s ≤ e ∧ s < w.l.length
    · have hc2 : (if convertIdxAt d e ≥ d.elements then d.elements - 1 else convertIdxAt d e)
          = min e (w.l.length - 1) := by
        rw [convertIdxAt_list (by omega) h.stack]
        split <;> split <;> omega
      obtain ⟨d', h1, h2, h3⟩ := removeRange_spec h.repr hl hse.1 hse.2 (hconv hse.2) hc2 (by omega)
      have hcut : cut w.l s (min e (w.l.length - 1)) = w.l.take s ++ w.l.drop (e + 1) := by
        unfold cut
        congr 1
        by_cases hel : e < w.l.length
        · rw [Nat.min_eq_left (by omega)]
        · rw [Nat.min_eq_right (by omega), List.drop_of_length_le (by omega), List.drop_of_length_le (by omega)]
      rw [hcut] at h2
      have hsub : (w.l.take s ++ w.l.drop (e + 1)).Sublist w.l := by
        have : w.l = w.l.take s ++ w.l.drop s := (List.take_append_drop s w.l).symm
        conv => rhs; rw [this]
        apply List.Sublist.append (List.Sublist.refl _)
        rw [show e + 1 = s + (e + 1 - s) by omega, ← List.drop_drop]
        exact List.drop_sublist _ _
      refine ⟨.bool (s ≤ e ∧ s < w.l.length), d', { w with l := w.l.take s ++ w.l.drop (e + 1) },
        by simp [sstep, h1, hse], ⟨rfl, by rw [if_pos hse]⟩,
        h.of h3 h2 (fun ha => sublist_sorted hsub (h.ord ha)), ?_⟩
      have := hsub.length_le
      simp only; omega
    · refine ⟨.bool (s ≤ e ∧ s < w.l.length), d, w, ?_, ⟨rfl, by rw [if_neg hse]⟩, h, by omega⟩
      simp only [sstep]; rw [removeRange_reject h.repr (by omega)]; simp [hse]
  | removeVal v all =>
    have hfs : (w.l.filter (fun x => decide (cmp v x ≠ 0))).Sublist w.l := List.filter_sublist
    by_cases h0 : d.elements = 0
    · have hnil : w.l = [] := List.length_eq_zero_iff.1 (by omega)
      refine ⟨.num 0, d, w, by simp [sstep, removeVal, h0], ?_, h, by omega⟩
      cases all with
      | true =>
        refine ⟨by simp [hnil], ?_⟩
        obtain ⟨l, g⟩ := w
        simp only at hnil
        subst hnil; rfl
      | false => exact Or.inl ⟨rfl, rfl, by simp [hnil]⟩
    by_cases ha : Active c w
    · obtain ⟨r, h1, h2, h3⟩ := ssim_index hc h v
      cases r with
      | none =>
        have hno := h2.1 rfl
        have hrv : removeVal cmp d v all = some (0, d) := by
          unfold removeVal
          rw [if_neg h0, if_pos (hact.2 ha), h1]
        refine ⟨.num 0, d, w, by simp [sstep, hrv], ?_, h, by omega⟩
        cases all with
        | true =>
          refine ⟨?_, ?_⟩
          · congr 1; symm; rw [List.countP_eq_zero]; intro x hx; simpa using hno x hx
          · rw [List.filter_eq_self.2 (fun x hx => by simpa using hno x hx)]
        | false => exact Or.inl ⟨rfl, rfl, hno⟩
      | some idx =>
        obtain ⟨h4, h5⟩ := h3 idx rfl
        have hsorted := h.ord ha
        have hrv : removeVal cmp d v all =
            (removeRange d (if all then idx - runUp cmp v 0 ((w.l.take idx).reverse) else idx)
              (if all then runUp cmp v idx (w.l.drop (idx + 1)) else idx)).map fun (_, d) =>
              (1 + ((if all then runUp cmp v idx (w.l.drop (idx + 1)) else idx)
                - (if all then idx - runUp cmp v 0 ((w.l.take idx).reverse) else idx)), d) := by
          unfold removeVal
          rw [if_neg h0, if_pos (hact.2 ha), h1]
          dsimp only
          rw [contents_spec h.repr]
        cases all with
        | true =>
          obtain ⟨g1, g2, g3, g4⟩ := cut_run hc hsorted v h4 h5
          simp only [if_true] at hrv
          revert g1 g2 g3 g4 hrv
          generalize runUp cmp v idx (w.l.drop (idx + 1)) = e
          generalize idx - runUp cmp v 0 (w.l.take idx).reverse = s
          intro g1 g2 g3 g4 hrv
          obtain ⟨d', k1, k2, k3⟩ := removeRange_spec h.repr hl g1 (by omega) (hconv (by omega))
            (pe := e) (by rw [hconv g2, if_neg (by omega)]) g1
          have hcl := cut_length (l := w.l) g1 g2
          rw [g4] at k2 hcl
          refine ⟨.num (1 + (e - s)), d', { w with l := w.l.filter (fun x => decide (cmp v x ≠ 0)) },
            by simp [sstep, hrv, k1], ⟨?_, rfl⟩, h.of k3 k2 (fun _ => sublist_sorted hfs hsorted), ?_⟩
          · congr 1
            have e3 : (w.l.filter (fun x => decide (cmp v x ≠ 0))).length
                + w.l.countP (fun x => decide (cmp v x = 0)) = w.l.length := by
              rw [← List.countP_eq_length_filter]
              have := List.length_eq_countP_add_countP (fun x => decide (cmp v x = 0)) (l := w.l)
              simp only [decide_eq_true_eq] at this
              simp only [ne_eq, decide_not] at this ⊢
              omega
            omega
          · have := hfs.length_le
            simp only; omega
        | false =>
          obtain ⟨d', k1, k2, k3⟩ := removeRange_spec h.repr hl (Nat.le_refl idx) h4 (hconv h4)
            (pe := idx) (by rw [hconv h4, if_neg (by omega)]) (Nat.le_refl _)
          rw [cut_self] at k2
          refine ⟨.num 1, d', { w with l := w.l.eraseIdx idx }, by simp [sstep, hrv, k1],
            Or.inr ⟨rfl, idx, h4, h5, rfl⟩, h.of k3 k2 (fun _ => sublist_sorted (herase idx) hsorted), ?_⟩
          have := (herase idx).length_le
          simp only; omega
    · have hrv : removeVal cmp d v all = removeLoop cmp false all v w.l.length 0 d := by
        unfold removeVal
        rw [if_neg h0, if_neg (fun hh => ha (hact.1 hh)), he]
      cases all with
      | true =>
        obtain ⟨d', k1, k2, k3⟩ := removeLoop_all (cmp := cmp) false v w.l.length d w.l 0 h.repr hl h.stack (Nat.le_refl _)
        simp only [List.take_length, List.drop_length, List.append_nil, Nat.zero_add] at k1 k2
        have hmf : (w.l.filter (fun x => !matches' cmp false v x)) = w.l.filter (fun x => decide (cmp v x ≠ 0)) := by
          congr 1; funext x; simp [matches']
        have hmc : (w.l.countP (fun x => matches' cmp false v x)) = w.l.countP (fun x => decide (cmp v x = 0)) := by
          congr 1
        rw [hmf] at k2
        rw [hmc] at k1
        refine ⟨_, d', { w with l := w.l.filter (fun x => decide (cmp v x ≠ 0)) }, by simp only [sstep, hrv, k1]; rfl,
          ⟨rfl, rfl⟩, h.of k3 k2 (fun hh => absurd hh ha), ?_⟩
        have := hfs.length_le
        simp only; omega
      | false =>
        rcases removeLoop_one (cmp := cmp) false v w.l.length d w.l h.repr hl h.stack (Nat.le_refl _) with
          ⟨d', k1, k2, k3, k4⟩ | ⟨d', k, k1, k2, k3, k4, k5, k6, _⟩
        · refine ⟨.num 0, d', w, by simp [sstep, hrv, k1], Or.inl ⟨rfl, rfl, ?_⟩,
            h.of k3 k2 (fun hh => absurd hh ha), by omega⟩
          intro x hx
          obtain ⟨i, hi, rfl⟩ := List.getElem_of_mem hx
          simpa [matches'] using k4 i hi hi
        · refine ⟨.num 1, d', { w with l := w.l.eraseIdx k }, by simp [sstep, hrv, k1],
            Or.inr ⟨rfl, k, k4, by simpa [matches'] using k6, rfl⟩, h.of k3 k2 (fun hh => absurd hh ha), ?_⟩
          have := (herase k).length_le
          simp only; omega
  | replaceAt v i =>
    by_cases ha : Active c w
    · refine ⟨.bool false, d, w, ?_, Or.inl ⟨ha, rfl, rfl⟩, h, by omega⟩
      have := hact.2 ha
      simp at this
      simp only [sstep]; rw [replaceAt_reject h.repr v (Or.inr (by simpa using this))]; rfl
    · have hna : ¬ (d.sorted = true ∧ ¬ d.multi = true) := by
        intro hh; exact ha (hact.1 (by simpa using hh))
      by_cases hi : i < w.l.length
      · obtain ⟨d', h1, h2, h3⟩ := replaceAt_spec h.repr hl v hi hna
        rw [hconv hi] at h2
        exact ⟨.bool (i < w.l.length), d', { w with l := w.l.set i v }, by simp [sstep, h1, hi],
          Or.inr ⟨ha, rfl, rfl⟩, h.of h3 h2 (fun hh => absurd hh ha), by simp⟩
      · refine ⟨.bool (i < w.l.length), d, { w with l := w.l.set i v }, ?_, Or.inr ⟨ha, rfl, rfl⟩, ?_, by simp⟩
        · simp only [sstep]; rw [replaceAt_reject h.repr v (Or.inl (by omega))]; simp [hi]
        · rw [List.set_eq_of_length_le (by omega)]; exact h

theorem ssim_run (hc : LawfulCmp cmp) {c : Cfg} (ops : List (SOp α)) : ∀ {d : L α} {w : View α}, SSim cmp c d w →
    w.l.length + ops.length < 2 ^ 64 →
    ∃ rs d' w', srun cmp d ops = some (rs, d') ∧ SSpecRun cmp c w ops rs w' ∧ SSim cmp c d' w' ∧
      w'.l.length < 2 ^ 64 := by
  induction ops with
  | nil => intro d w h hl; exact ⟨[], d, w, rfl, .nil w, h, by simpa using hl⟩
  | cons op ops ih =>
    intro d w h hl
    simp only [List.length_cons] at hl
    obtain ⟨r, d1, w1, h1, h2, h3, h4⟩ := ssim_step hc h (by omega) op
    obtain ⟨rs, d', w', h5, h6, h7, h8⟩ := ih h3 (by omega)
    exact ⟨r :: rs, d', w', by simp [srun, h1, h5], .cons h2 h6, h7, h8⟩

/-- C06: every history of calls on a (sorted or unsorted, set or not) list stays inside the allocation, returns the
documented results, changes the sequence only as `SSpec` allows - so an element is lost only by a removal naming it -
and whenever sorting is in force the list is in comparator order. -/
theorem sorted_list_correct (hc : LawfulCmp cmp) (c : Cfg) (ops : List (SOp α)) (hn : ops.length < 2 ^ 64) :
    ∃ rs d w, srun cmp (create false c.sorted c.stable c.neverShrink c.setVal false) ops = some (rs, d) ∧
      SSpecRun cmp c ⟨[], false⟩ ops rs w ∧
      d.elements = w.l.length ∧ (∀ i, at' d i = some w.l[i]?) ∧
      (Active c w → w.l.Pairwise (fun a b => cmp a b ≤ 0)) := by
  have h0 : SSim cmp c (create false c.sorted c.stable c.neverShrink c.setVal false) (⟨[], false⟩ : View α) :=
    ⟨create_repr _ _ _ _ _ _, rfl, by simp [create], rfl, rfl, rfl, rfl, fun _ => List.Pairwise.nil⟩
  obtain ⟨rs, d, w, h1, h2, h3, h4⟩ := ssim_run hc ops h0 (by simpa using hn)
  refine ⟨rs, d, w, h1, h2, h3.repr.len, ?_, h3.ord⟩
  intro i
  rw [at_spec h3.repr h4]
  by_cases hi : i < w.l.length
  · rw [if_pos hi, convertIdxAt_eq h3.repr h4 hi, h3.stack]; simp
  · rw [if_neg hi, List.getElem?_eq_none (by omega)]

/-- Nothing inserted is lost and nothing appears from nowhere: the elements after any number of plain insertions
(also grouped ones) are a permutation of the inserted ones. -/
theorem sorted_list_multiset (hc : LawfulCmp cmp) (c : Cfg) (hset : c.setVal = false) (vs : List α)
    (hn : vs.length < 2 ^ 64) :
    ∃ rs d, ∃ w : List α, srun cmp (create false c.sorted c.stable c.neverShrink false false) (vs.map .insert) = some (rs, d) ∧
      (∀ i, at' d i = some w[i]?) ∧ w.Perm vs ∧ (c.sorted = true → w.Pairwise (fun a b => cmp a b ≤ 0)) := by
  obtain ⟨rs, d, w, h1, h2, h3, h4, h5⟩ := sorted_list_correct hc c (vs.map .insert) (by simpa using hn)
  have key : ∀ (vs : List α) (w0 w : View α) rs, SSpecRun cmp c w0 (vs.map .insert) rs w →
      w.l.Perm (w0.l ++ vs) ∧ w.group = w0.group := by
    intro vs
    induction vs with
    | nil => intro w0 w rs h; cases h; exact ⟨by simp, rfl⟩
    | cons v vs ih =>
      intro w0 w rs h
      cases h with
      | cons hs hr =>
        obtain ⟨p, g⟩ := ih _ _ _ hr
        rcases hs with ⟨h, _⟩ | ⟨_, _, hg, i, hi, hl, _⟩
        · simp [Refused, hset] at h
        · refine ⟨?_, g.trans hg⟩
          rw [hl] at p
          refine p.trans ?_
          have e : w0.l = w0.l.take i ++ w0.l.drop i := (List.take_append_drop _ _).symm
          refine ((List.perm_middle).append_right vs).trans ?_
          rw [List.take_append_drop]
          exact List.perm_middle.symm
  obtain ⟨p, g⟩ := key vs _ _ _ h2
  rw [hset] at h1
  exact ⟨rs, d, w.l, h1, h4, by simpa using p, fun hs => h5 ⟨hs, g⟩⟩

/-- A sorted list used with ties, grouped insertion and removal by value. -/
example : LawfulCmp keyCmp ∧
    (srun keyCmp (create false true true false false false)
      [.insert (3,0), .insert (1,0), .insert (3,1), .insertBegin, .insert (2,0), .insert (0,0), .insertEnd,
       .removeVal (3,9) true, .takeAt 0]).map (fun x => (x.1.drop 7, contents x.2)) =
      some ([.num 2, .val (some (0,0))], some [(1,0),(2,0)]) :=
  ⟨keyCmp_lawful, by decide +kernel⟩

/-! ### Searching and counting -/

/-- `M_list_index_of` by value on any list reachable as above finds an equal element exactly when there is one. -/
theorem index_of_correct (hc : LawfulCmp cmp) (c : Cfg) (ops : List (SOp α)) (hn : ops.length < 2 ^ 64) (v : α) :
    ∃ rs d w r, srun cmp (create false c.sorted c.stable c.neverShrink c.setVal false) ops = some (rs, d) ∧
      SSpecRun cmp c ⟨[], false⟩ ops rs w ∧
      indexOf cmp d v false = some r ∧ (r = none ↔ ∀ x ∈ w.l, cmp v x ≠ 0) ∧
      (∀ k, r = some k → ∃ x, w.l[k]? = some x ∧ cmp v x = 0) := by
  have h0 : SSim cmp c (create false c.sorted c.stable c.neverShrink c.setVal false) (⟨[], false⟩ : View α) :=
    ⟨create_repr _ _ _ _ _ _, rfl, by simp [create], rfl, rfl, rfl, rfl, fun _ => List.Pairwise.nil⟩
  obtain ⟨rs, d, w, h1, h2, h3, h4⟩ := ssim_run hc ops h0 (by simpa using hn)
  obtain ⟨r, h5, h6, h7⟩ := ssim_index hc h3 v
  refine ⟨rs, d, w, r, h1, h2, h5, h6, ?_⟩
  intro k hk
  obtain ⟨h8, h9⟩ := h7 k hk
  exact ⟨_, List.getElem?_eq_getElem h8, h9⟩

/-- `M_list_count` by value returns the number of equal elements, after any history. -/
theorem count_correct (hc : LawfulCmp cmp) (c : Cfg) (ops : List (SOp α)) (hn : ops.length < 2 ^ 64) (v : α) :
    ∃ rs d w, srun cmp (create false c.sorted c.stable c.neverShrink c.setVal false) ops = some (rs, d) ∧
      SSpecRun cmp c ⟨[], false⟩ ops rs w ∧
      count cmp d v = some (w.l.countP (fun x => decide (cmp v x = 0))) := by
  have h0 : SSim cmp c (create false c.sorted c.stable c.neverShrink c.setVal false) (⟨[], false⟩ : View α) :=
    ⟨create_repr _ _ _ _ _ _, rfl, by simp [create], rfl, rfl, rfl, rfl, fun _ => List.Pairwise.nil⟩
  obtain ⟨rs, d, w, h1, h2, h3, h4⟩ := ssim_run hc ops h0 (by simpa using hn)
  refine ⟨rs, d, w, h1, h2, ?_⟩
  have he := h3.repr.len
  unfold count
  by_cases hz : d.elements = 0
  · rw [if_pos hz, List.length_eq_zero_iff.1 (he.symm.trans hz)]; rfl
  rw [if_neg hz, contents_spec h3.repr]
  dsimp only
  by_cases ha : Active c w
  · rw [if_pos (h3.active.2 ha)]
    obtain ⟨r, h5, h6, h7⟩ := ssim_index hc h3 v
    rw [h5]
    cases r with
    | none =>
      dsimp only
      congr 1; symm; rw [List.countP_eq_zero]; intro x hx; simpa using h6.1 rfl x hx
    | some idx =>
      obtain ⟨h8, h9⟩ := h7 idx rfl
      obtain ⟨g1, g2, g3, g4⟩ := cut_run hc (h3.ord ha) v h8 h9
      dsimp only
      revert g1 g2 g3 g4
      generalize runUp cmp v idx (w.l.drop (idx + 1)) = e
      generalize idx - runUp cmp v 0 (w.l.take idx).reverse = s
      intro g1 g2 g3 g4
      have hcl := cut_length (l := w.l) g1 g2
      rw [g4] at hcl
      have e3 : (w.l.filter (fun x => decide (cmp v x ≠ 0))).length
          + w.l.countP (fun x => decide (cmp v x = 0)) = w.l.length := by
        rw [← List.countP_eq_length_filter]
        have := List.length_eq_countP_add_countP (fun x => decide (cmp v x = 0)) (l := w.l)
        simp only [decide_eq_true_eq] at this
        simp only [ne_eq, decide_not] at this ⊢
        omega
      congr 1
      omega
  · rw [if_neg (fun hh => ha (h3.active.1 hh))]

/-- C06 is violated when matching pointers: removing all occurrences of one pointer from a sorted list can leave an
occurrence behind and delete an unrelated element instead (`base/list/m_list.c:287-317` keeps using the index found
before earlier occurrences were removed).  Here the pointer `(1,0)` occurs twice; one occurrence stays and `(2,0)`,
which nobody asked to remove, is gone. -/
theorem removePtrAll_fails :
    ((srun keyCmp (create false true false false false false)
        [.insert (0,0), .insert (1,0), .insert (1,0), .insert (2,0), .insert (2,1)]).bind
      fun x => (removePtrAll keyCmp x.2 (1,0)).bind fun y => (contents x.2).bind fun l =>
        (contents y.2).map fun l' => (l, y.1, l')) =
      some ([(0,0), (1,0), (1,0), (2,0), (2,1)], 2, [(0,0), (1,0), (2,1)]) := by decide +kernel

/-! ### C08 -/

/-- Specification of duplicate removal: a subsequence, without two matching elements, in which every element of the
original has a match, and that keeps the first of each group of matching elements. -/
structure Deduped (m : α → α → Bool) (l l' : List α) : Prop where
  sub : l'.Sublist l
  distinct : l'.Pairwise (fun x y => m x y = false)
  cover : ∀ x ∈ l, ∃ y ∈ l', m y x = true
  first : ∀ y ∈ l', l.find? (fun x => m y x) = some y

theorem dedupF_deduped (m : α → α → Bool) (hrefl : ∀ x, m x x = true) (hsymm : ∀ x y, m x y = m y x)
    (htrans : ∀ x y z, m x y = true → m y z = true → m x z = true) (l : List α) :
    Deduped m l (dedupF m l) := by
  induction hn : l.length using Nat.strongRecOn generalizing l with
  | _ n ih =>
    cases l with
    | nil => rw [dedupF]; exact ⟨List.Sublist.refl _, List.Pairwise.nil, by simp, by simp⟩
    | cons x l =>
      have hlen := List.length_filter_le (fun y => !m x y) l
      have hi := ih _ (by subst hn; simp; omega) (l.filter (fun y => !m x y)) rfl
      rw [dedupF]
      refine ⟨(hi.sub.trans List.filter_sublist).cons_cons x, ?_, ?_, ?_⟩
      · rw [List.pairwise_cons]
        refine ⟨fun y hy => ?_, hi.distinct⟩
        have := hi.sub.subset hy
        simpa using (List.mem_filter.1 this).2
      · intro y hy
        rcases List.mem_cons.1 hy with rfl | hy
        · exact ⟨y, by simp, hrefl y⟩
        · by_cases hm : m x y = true
          · exact ⟨x, by simp, hm⟩
          · obtain ⟨z, hz, hz'⟩ := hi.cover y (List.mem_filter.2 ⟨hy, by simpa using hm⟩)
            exact ⟨z, by simp [hz], hz'⟩
      · intro y hy
        rcases List.mem_cons.1 hy with rfl | hy
        · simp [hrefl]
        · have hf := hi.first y hy
          have hxy : m x y = false := by simpa using (List.mem_filter.1 (hi.sub.subset hy)).2
          rw [List.find?_cons, hsymm y x, hxy]
          rw [List.find?_filter] at hf
          rw [← hf]
          simp only
          congr 1
          funext z
          cases hz : m y z with
          | false => simp
          | true =>
            cases hz' : m x z with
            | false => simp
            | true =>
              have := htrans x z y hz' (by rw [hsymm]; exact hz)
              rw [hxy] at this; cases this

/-- C08, lists without sorting in force (pointer or value matching): after any history, removing duplicates yields
exactly the first element of each group of matching elements, in the original order.  Missing for the full property:
sorted lists, where it fails (`dedup_sorted_fails`). -/
theorem removeDuplicates_partial (hc : LawfulCmp cmp) (c : Cfg) (ops : List (SOp α)) (hn : ops.length < 2 ^ 64)
    (ptr : Bool) :
    ∃ rs d w, srun cmp (create false c.sorted c.stable c.neverShrink c.setVal false) ops = some (rs, d) ∧
      SSpecRun cmp c ⟨[], false⟩ ops rs w ∧
      (¬ Active c w → ∃ d' l', removeDuplicates cmp d ptr = some d' ∧
        d'.elements = l'.length ∧ (∀ i, at' d' i = some l'[i]?) ∧
        Deduped (fun x y => if ptr then decide (x = y) else decide (cmp x y = 0)) w.l l') := by
  have h0 : SSim cmp c (create false c.sorted c.stable c.neverShrink c.setVal false) (⟨[], false⟩ : View α) :=
    ⟨create_repr _ _ _ _ _ _, rfl, by simp [create], rfl, rfl, rfl, rfl, fun _ => List.Pairwise.nil⟩
  obtain ⟨rs, d, w, h1, h2, h3, h4⟩ := ssim_run hc ops h0 (by simpa using hn)
  refine ⟨rs, d, w, h1, h2, fun ha => ?_⟩
  obtain ⟨d', h5, h6, h7⟩ := dedupOuter_spec (cmp := cmp) ptr (d.elements + 1) 0 d w.l h3.repr h4 (by omega)
    (by have := h3.repr.len; omega)
  simp only [List.take_zero, List.nil_append, List.drop_zero] at h6
  have hm : (fun x y : α => if ptr then decide (x = y) else decide (cmp x y = 0)) = matches' cmp ptr := by
    funext x y; cases ptr <;> simp [matches']
  have hd : Deduped (matches' cmp ptr) w.l (dedupF (matches' cmp ptr) w.l) := by
    apply dedupF_deduped
    · intro x; cases ptr <;> simp [matches', hc.refl]
    · intro x y
      cases ptr with
      | true => simp [matches', eq_comm]
      | false =>
        simp only [matches']
        have : cmp x y = 0 ↔ cmp y x = 0 := hc.eq_swap x y
        simp [this]
    · intro x y z
      cases ptr with
      | true => simp [matches']; rintro rfl rfl; rfl
      | false => simp only [matches']; simp; exact fun a b => hc.eq_trans a b
  have hlen := hd.sub.length_le
  have hrd : removeDuplicates cmp d ptr = some d' := by
    unfold removeDuplicates; rw [if_neg (fun hh => ha (h3.active.1 hh)), h5]
  refine ⟨d', _, hrd, h6.len, ?_, ?_⟩
  · intro i
    rw [at_spec h6 (by omega)]
    by_cases hi : i < (dedupF (matches' cmp ptr) w.l).length
    · rw [if_pos hi, convertIdxAt_eq h6 (by omega) hi, (flags_eq h7).1.trans h3.stack]; simp
    · rw [if_neg hi, List.getElem?_eq_none (by omega)]
  · rw [hm]; exact hd

/-- The specification on a list with interleaved duplicates. -/
example : (srun keyCmp (create false false false false false false)
      [.insert (2,0), .insert (1,0), .insert (2,1), .insert (1,1), .insert (3,0), .insert (2,2)]).bind
        (fun x => (removeDuplicates keyCmp x.2 false).bind contents) = some [(2,0), (1,0), (3,0)] := by decide +kernel

/-- C08 is violated on sorted lists: `base/list/m_list.c:776-779` removes the range up to and including the first
element that does *not* match.  A sorted list holding 1, 2, 3 loses 2. -/
theorem dedup_sorted_fails :
    ((srun natCmp (create false true false false false false) [.insert 1, .insert 2, .insert 3]).bind
      fun x => (removeDuplicates natCmp x.2 false).bind contents) = some [1, 3] := by decide +kernel

/-! ### C53 -/

/-- C53, without `replace_at` and for sets by value: after any history the list holds no two elements comparing equal.
The full property fails for `replace_at` (`set_replaceAt_fails`). -/
theorem set_list_partial (hc : LawfulCmp cmp) (c : Cfg) (hset : c.setVal = true) (ops : List (SOp α))
    (hn : ops.length < 2 ^ 64) (hops : ∀ op ∈ ops, ∀ v i, op ≠ .replaceAt v i) :
    ∃ rs d, ∃ w : List α, srun cmp (create false c.sorted c.stable c.neverShrink true false) ops = some (rs, d) ∧
      d.elements = w.length ∧ (∀ i, at' d i = some w[i]?) ∧ w.Pairwise (fun a b : α => cmp a b ≠ 0) := by
  obtain ⟨rs, d, w, h1, h2, h3, h4, _⟩ := sorted_list_correct hc c ops hn
  rw [hset] at h1
  refine ⟨rs, d, w.l, h1, h3, h4, ?_⟩
  have hins : ∀ (l : List α) v i, l.Pairwise (fun a b => cmp a b ≠ 0) → (∀ x ∈ l, cmp v x ≠ 0) →
      (l.take i ++ v :: l.drop i).Pairwise (fun a b => cmp a b ≠ 0) := by
    intro l v i hp hv
    have e : (l.take i ++ l.drop i).Pairwise (fun a b => cmp a b ≠ 0) := by rw [List.take_append_drop]; exact hp
    rw [List.pairwise_append] at e ⊢
    refine ⟨e.1, ?_, ?_⟩
    · rw [List.pairwise_cons]
      exact ⟨fun x hx => hv x (List.mem_of_mem_drop hx), e.2.1⟩
    · intro a ha b hb
      rcases List.mem_cons.1 hb with rfl | hb
      · exact fun h => hv a (List.mem_of_mem_take ha) ((hc.eq_swap _ _).1 h)
      · exact e.2.2 a ha b hb
  have key : ∀ (ops : List (SOp α)) (w0 w : View α) rs, SSpecRun cmp c w0 ops rs w →
      (∀ op ∈ ops, ∀ v i, op ≠ .replaceAt v i) → w0.l.Pairwise (fun a b => cmp a b ≠ 0) →
      w.l.Pairwise (fun a b => cmp a b ≠ 0) := by
    intro ops
    induction ops with
    | nil => intro w0 w rs h _ hp; cases h; exact hp
    | cons op ops ih =>
      intro w0 w rs h hops hp
      cases h with
      | cons hs hr =>
        refine ih _ _ _ hr (fun o ho => hops o (by simp [ho])) ?_
        have hsub : ∀ l', List.Sublist l' w0.l → l'.Pairwise (fun a b => cmp a b ≠ 0) :=
          fun l' h => List.Pairwise.sublist h hp
        have href : ∀ v, ¬ Refused cmp c w0 v → ∀ x ∈ w0.l, cmp v x ≠ 0 :=
          fun v h x hx h0 => h ⟨hset, x, hx, h0⟩
        cases op with
        | insert v =>
          rcases hs with ⟨_, _, rfl⟩ | ⟨hr, _, _, i, _, hl, _⟩
          · exact hp
          · rw [hl]; exact hins _ _ _ hp (href v hr)
        | insertAt v i =>
          rcases hs with ⟨_, _, rfl⟩ | ⟨_, _, _, rfl⟩ | ⟨_, hr, _, _, _, j, _, hl⟩
          · exact hp
          · exact hp
          · rw [hl]; exact hins _ _ _ hp (href v hr)
        | insertBegin => obtain ⟨_, rfl⟩ := hs; exact hp
        | insertEnd =>
          obtain ⟨_, _, hs⟩ := hs
          split at hs
          · exact hs.1.symm.pairwise hp (fun h h' => h ((hc.eq_swap _ _).1 h'))
          · rw [hs]; exact hp
        | takeAt i => obtain ⟨_, rfl⟩ := hs; exact hsub _ (List.eraseIdx_sublist _ _)
        | removeAt i => obtain ⟨_, rfl⟩ := hs; exact hsub _ (List.eraseIdx_sublist _ _)
        | removeRange s e =>
          obtain ⟨_, rfl⟩ := hs
          dsimp only
          split
          · next hse =>
            apply hsub
            have : w0.l = w0.l.take s ++ w0.l.drop s := (List.take_append_drop s w0.l).symm
            conv => rhs; rw [this]
            apply List.Sublist.append (List.Sublist.refl _)
            rw [show e + 1 = s + (e + 1 - s) by omega, ← List.drop_drop]
            exact List.drop_sublist _ _
          · exact hp
        | removeVal v all =>
          cases all with
          | true => obtain ⟨_, rfl⟩ := hs; exact hsub _ List.filter_sublist
          | false =>
            rcases hs with ⟨_, rfl, _⟩ | ⟨_, i, _, _, rfl⟩
            · exact hp
            · exact hsub _ (List.eraseIdx_sublist _ _)
        | replaceAt v i => exact absurd rfl (hops _ (by simp) v i)
  exact key ops _ _ _ h2 hops List.Pairwise.nil

example : (srun natCmp (create false true true false true false)
      [.insert 2, .insert 1, .insert 2, .insertBegin, .insert 3, .insert 1, .insertEnd]).map
        (fun x => (x.1, contents x.2)) =
    some ([.bool true, .bool true, .bool false, .unit, .bool true, .bool false, .unit], some [1, 2, 3]) := by
  decide +kernel

/-- C53 is violated by `M_list_replace_at`, `base/list/m_list.c:803-814`: an unsorted set holding 1 and 2 becomes
`1, 1`. -/
theorem set_replaceAt_fails :
    ((srun natCmp (create false false false false true false) [.insert 1, .insert 2, .replaceAt 1 1]).bind
      fun x => contents x.2) = some [1, 1] := by decide +kernel

end Verif.MList
