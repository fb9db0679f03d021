import Verif.Ini.Copy
import Verif.Ini.Read
/- The tree of elements after `M_ini_writer_update_tree`. -/
namespace Verif.Ini
open Verif.Chr (toLower)

/-- The values that a list of elements gives a key. -/
def occ (sec : Option (List UInt8)) (es : List Elem) (k : List UInt8) : List (Option (List UInt8)) :=
  es.flatMap fun e => match e with
    | .kv key v _ => if Same (path sec key) k then [v] else []
    | _ => []

theorem occ_nil (sec : Option (List UInt8)) (k : List UInt8) : occ sec [] k = [] := rfl

theorem occ_app (sec : Option (List UInt8)) (a b : List Elem) (k : List UInt8) : occ sec (a ++ b) k = occ sec a k ++ occ sec b k := by
  simp [occ, List.flatMap_append]

theorem occ_cons (sec : Option (List UInt8)) (e : Elem) (b : List Elem) (k : List UInt8) : occ sec (e :: b) k = occ sec [e] k ++ occ sec b k := by
  rw [← occ_app]; rfl

theorem occ_kv (sec : Option (List UInt8)) (key : List UInt8) (v c : Option (List UInt8)) (k : List UInt8) : occ sec [.kv key v c] k = if Same (path sec key) k then [v] else [] := by
  simp [occ]

/-- The values that are to be written: every key has one, at least. -/
structure Todo (d : Kvs) (ns : List (List UInt8)) (f : List UInt8 → List (Option (List UInt8))) : Prop where
  holds : Holds d ns f
  some : ∀ n ∈ ns, f n ≠ []

theorem Todo.len {d : Kvs} {ns : List (List UInt8)} {f : List UInt8 → List (Option (List UInt8))} (h : Todo d ns f) (k : List UInt8) : d.len k = (f k).length := by
  unfold Kvs.len; rw [h.holds.getD]

theorem Todo.get {d : Kvs} {ns : List (List UInt8)} {f : List UInt8 → List (Option (List UInt8))} (h : Todo d ns f) (k : List UInt8) (i : Nat) : d.get k i = (f k)[i]? := by
  unfold Kvs.get; rw [h.holds.getD]

/-- A key without values is taken out. -/
theorem Todo.clean {d : Kvs} {ns : List (List UInt8)} {f : List UInt8 → List (Option (List UInt8))} (h : Holds d ns f) (k : List UInt8) (hs : ∀ n ∈ ns, ¬ Same n k → f n ≠ []) :
    ∃ ns', Todo (if d.len k = 0 then (d.remove k).2 else d) ns' f ∧ ∀ n ∈ ns', n ∈ ns := by
  have hl : d.len k = (f k).length := by unfold Kvs.len; rw [h.getD]
  by_cases h0 : d.len k = 0
  · rw [if_pos h0]
    have hf : f k = [] := List.length_eq_zero_iff.1 (hl ▸ h0)
    refine ⟨_, ⟨(h.remove k).2.congr fun k' => ?_, ?_⟩, fun n hn => (List.mem_filter.1 hn).1⟩
    · by_cases hk : Same k k'
      · rw [if_pos hk, ← h.ok k k' hk, hf]
      · rw [if_neg hk]
    · intro n hn
      have := List.mem_filter.1 hn
      exact hs n this.1 (of_decide_eq_true this.2)
  · rw [if_neg h0]
    refine ⟨ns, ⟨h, ?_⟩, fun n hn => hn⟩
    intro n hn
    by_cases hk : Same n k
    · rw [h.ok n k hk]
      intro e; rw [e] at hl; exact h0 hl
    · exact hs n hn hk

/-- Ways of writing that keep all values in order. -/
def Keeps (st : Settings) (g : List UInt8 → List (Option (List UInt8))) : Prop := ∀ k, (g k).length ≤ 1 ∨ st.multi = .maintainOrder

theorem updateOne_spec {st : Settings} {orig kvs : Kvs} {ons ns : List (List UInt8)} {f g : List UInt8 → List (Option (List UInt8))} (ho : Holds orig ons g) (h : Todo kvs ns f)
    (hk : Keeps st g) (hfg : ∀ k, f k = [] ∨ f k = g k) (sec : Option (List UInt8)) (key : List UInt8) (v c : Option (List UInt8)) :
    ∃ ns' f', Todo (updateOne st orig kvs (fullKey sec key) key v c).2 ns' f' ∧ (∀ n ∈ ns', n ∈ ns) ∧ (∀ k, f' k = [] ∨ f' k = g k) ∧
      (∀ k, occ sec (updateOne st orig kvs (fullKey sec key) key v c).1.toList k ++ f' k = f k) ∧
      (∀ e, (updateOne st orig kvs (fullKey sec key) key v c).1 = some e → (∃ v', e = .kv key v' c ∧ v' ∈ g (path sec key)) ∧ ∃ n ∈ ns, Same n (path sec key)) := by
  rw [fullKey_path]
  generalize hfk : path sec key = fk
  have hlen := h.len fk
  have hol : orig.len fk = (g fk).length := by unfold Kvs.len; rw [ho.getD]
  unfold updateOne
  by_cases h0 : kvs.len fk = 0
  · have hf : f fk = [] := List.length_eq_zero_iff.1 (hlen ▸ h0)
    obtain ⟨ns', a, b⟩ := Todo.clean h.holds fk (fun n hn _ => h.some n hn)
    rw [if_pos h0] at a
    rw [if_pos h0]
    exact ⟨ns', f, a, b, hfg, fun k => by simp [occ], fun e he => by cases he⟩
  · rw [if_neg h0]
    have hne : f fk ≠ [] := fun e => h0 (by rw [hlen, e]; rfl)
    have hfe : f fk = g fk := (hfg fk).resolve_left hne
    have hin : ∃ n ∈ ns, Same n fk := by
      apply Classical.byContradiction
      intro hx
      exact hne (h.holds.none fk hx)
    by_cases h1 : orig.len fk = 1
    · simp only [h1, if_true]
      have hg1 : (g fk).length = 1 := hol ▸ h1
      obtain ⟨w, hw⟩ := List.length_eq_one_iff.1 hg1
      have hfw : f fk = [w] := hfe.trans hw
      have hr := (h.holds.removeAt fk 0).2
      obtain ⟨ns', a, b⟩ := Todo.clean hr fk (fun n hn hnk => by
        have : ¬ Same fk n := fun e => hnk e.symm
        simp only [if_neg this]; exact h.some n hn)
      have hl0 : (kvs.removeAt fk 0).2.len fk = 0 := by
        unfold Kvs.len; rw [hr.getD, if_pos (Same.rfl' : Same fk fk), hfw]; rfl
      rw [if_pos hl0] at a
      rw [h.get, hfw]
      simp only [hl0, if_true, List.getElem?_cons_zero, Option.getD_some, Option.toList_some]
      refine ⟨ns', _, a, b, ?_, ?_, ?_⟩
      · intro k
        by_cases hs : Same fk k
        · left; rw [if_pos hs, ← h.holds.ok fk k hs, hfw]; rfl
        · rw [if_neg hs]; exact hfg k
      · intro k
        rw [occ_kv, hfk]
        by_cases hs : Same fk k
        · rw [if_pos hs, if_pos hs, ← h.holds.ok fk k hs, hfw]; rfl
        · rw [if_neg hs, if_neg hs]; rfl
      · intro e he
        cases he
        exact ⟨⟨w, rfl, by rw [hw]; simp⟩, hin⟩
    · have hm : st.multi = .maintainOrder := by
        refine (hk fk).resolve_left fun hx => ?_
        have : (f fk).length ≠ 0 := fun e => hne (List.length_eq_zero_iff.1 e)
        rw [hfe] at this
        omega
      simp only [h1, if_false, hm, reduceCtorEq, h0]
      exact ⟨ns, f, h, fun _ hn => hn, hfg, fun k => by simp [occ], fun e he => by cases he⟩

/-- One list of elements. -/
theorem updateList_spec {st : Settings} {orig : Kvs} {ons : List (List UInt8)} {g : List UInt8 → List (Option (List UInt8))} (ho : Holds orig ons g) (hk : Keeps st g) (sec : Option (List UInt8))
    (es : List Elem) (kvs : Kvs) {ns : List (List UInt8)} {f : List UInt8 → List (Option (List UInt8))} (h : Todo kvs ns f) (hfg : ∀ k, f k = [] ∨ f k = g k) :
    ∃ ns' f', Todo (updateList st orig sec es kvs).2 ns' f' ∧ (∀ n ∈ ns', n ∈ ns) ∧ (∀ k, f' k = [] ∨ f' k = g k) ∧
      (∀ k, occ sec (updateList st orig sec es kvs).1 k ++ f' k = f k) ∧
      (∀ e ∈ (updateList st orig sec es kvs).1, (∃ key v v' c, e = .kv key v' c ∧ .kv key v c ∈ es ∧ v' ∈ g (path sec key) ∧ ∃ n ∈ ns, Same n (path sec key)) ∨ (e ∈ es ∧ ∀ key v c, e ≠ .kv key v c)) ∧
      ((updateList st orig sec es kvs).1.filter fun e => match e with | .kv _ _ _ => false | _ => true) = es.filter fun e => match e with | .kv _ _ _ => false | _ => true := by
  induction es generalizing kvs ns f with
  | nil => exact ⟨ns, f, h, fun _ hn => hn, hfg, fun k => by simp [updateList, occ], by simp [updateList], rfl⟩
  | cons e es ih =>
    by_cases hkv : ∃ key v c, e = .kv key v c
    · obtain ⟨key, v, c, rfl⟩ := hkv
      obtain ⟨ns1, f1, a1, a2, a3, a4, a5⟩ := updateOne_spec ho h hk hfg sec key v c
      obtain ⟨ns2, f2, b1, b2, b3, b4, b5, b6⟩ := ih (updateOne st orig kvs (fullKey sec key) key v c).2 a1 a3
      have e1 : (updateList st orig sec (.kv key v c :: es) kvs).1 = (updateOne st orig kvs (fullKey sec key) key v c).1.toList ++ (updateList st orig sec es (updateOne st orig kvs (fullKey sec key) key v c).2).1 := by
        simp only [updateList]
        cases (updateOne st orig kvs (fullKey sec key) key v c).1 <;> rfl
      refine ⟨ns2, f2, b1, fun n hn => a2 n (b2 n hn), b3, fun k => ?_, ?_, ?_⟩
      · rw [e1, occ_app, ← a4 k, ← b4 k, List.append_assoc]
      · rw [e1]
        intro e he
        rcases List.mem_append.1 he with he | he
        · obtain ⟨⟨v', h1, h1'⟩, h2⟩ := a5 e (by simpa using he)
          exact .inl ⟨key, v, v', c, h1, by simp, h1', h2⟩
        · rcases b5 e he with ⟨key', v1, v', c', h1, h2, h3, n, h4, h5⟩ | ⟨h1, h2⟩
          · exact .inl ⟨key', v1, v', c', h1, by simp [h2], h3, n, a2 n h4, h5⟩
          · exact .inr ⟨by simp [h1], h2⟩
      · rw [e1, List.filter_append, b6]
        cases hx : (updateOne st orig kvs (fullKey sec key) key v c).1 with
        | none => rfl
        | some y =>
          obtain ⟨⟨v', h1, _⟩, _⟩ := a5 y hx
          subst h1; rfl
    · have e1 : updateList st orig sec (e :: es) kvs = (e :: (updateList st orig sec es kvs).1, (updateList st orig sec es kvs).2) := by
        cases e with
        | kv key v c => exact absurd ⟨key, v, c, rfl⟩ hkv
        | comment v => rfl
        | empty => rfl
        | «section» n c => rfl
      have hno : ∀ k, occ sec [e] k = [] := by
        intro k
        cases e with
        | kv key v c => exact absurd ⟨key, v, c, rfl⟩ hkv
        | comment v => rfl
        | empty => rfl
        | «section» n c => rfl
      obtain ⟨ns2, f2, b1, b2, b3, b4, b5, b6⟩ := ih kvs h hfg
      rw [e1]
      refine ⟨ns2, f2, b1, b2, b3, fun k => ?_, ?_, ?_⟩
      · rw [occ_cons, hno, List.nil_append, b4]
      · intro x hx
        rcases List.mem_cons.1 hx with rfl | hx
        · exact .inr ⟨by simp, fun key v c hx => hkv ⟨key, v, c, hx⟩⟩
        · rcases b5 x hx with ⟨key', v1, v', c', h1, h2, h3⟩ | ⟨h1, h2⟩
          · exact .inl ⟨key', v1, v', c', h1, by simp [h2], h3⟩
          · exact .inr ⟨by simp [h1], h2⟩
      · rw [List.filter_cons, List.filter_cons, b6]

/-- The values that the sections give a key. -/
def occs (ss : List (List UInt8 × List Elem)) (k : List UInt8) : List (Option (List UInt8)) := ss.flatMap fun p => occ (some p.1) p.2 k

theorem updateSecs_spec {st : Settings} {orig : Kvs} {ons : List (List UInt8)} {g : List UInt8 → List (Option (List UInt8))} (ho : Holds orig ons g) (hk : Keeps st g)
    (ss : List (List UInt8 × List Elem)) (kvs : Kvs) {ns : List (List UInt8)} {f : List UInt8 → List (Option (List UInt8))} (h : Todo kvs ns f) (hfg : ∀ k, f k = [] ∨ f k = g k) :
    ∃ ns' f', Todo (updateSecs st orig ss kvs).2 ns' f' ∧ (∀ n ∈ ns', n ∈ ns) ∧ (∀ k, f' k = [] ∨ f' k = g k) ∧
      (∀ k, occs (updateSecs st orig ss kvs).1 k ++ f' k = f k) ∧ (updateSecs st orig ss kvs).1.map (·.1) = ss.map (·.1) ∧
      (∀ p ∈ (updateSecs st orig ss kvs).1, ∃ q ∈ ss, q.1 = p.1 ∧ ∀ e ∈ p.2,
        (∃ key v v' c, e = .kv key v' c ∧ .kv key v c ∈ q.2 ∧ v' ∈ g (path (some p.1) key) ∧ ∃ n ∈ ns, Same n (path (some p.1) key)) ∨ (e ∈ q.2 ∧ ∀ key v c, e ≠ .kv key v c)) := by
  induction ss generalizing kvs ns f with
  | nil => exact ⟨ns, f, h, fun _ hn => hn, hfg, fun k => by simp [updateSecs, occs], rfl, by simp [updateSecs]⟩
  | cons p ss ih =>
    obtain ⟨s, es⟩ := p
    obtain ⟨ns1, f1, a1, a2, a3, a4, a5, _⟩ := updateList_spec ho hk (some s) es kvs h hfg
    obtain ⟨ns2, f2, b1, b2, b3, b4, b5, b6⟩ := ih (updateList st orig (some s) es kvs).2 a1 a3
    refine ⟨ns2, f2, b1, fun n hn => a2 n (b2 n hn), b3, fun k => ?_, ?_, ?_⟩
    · simp only [updateSecs, occs, List.flatMap_cons]
      have := b4 k
      unfold occs at this
      rw [List.append_assoc, this, a4]
    · simp only [updateSecs, List.map_cons, b5]
    · intro p hp
      simp only [updateSecs, List.mem_cons] at hp
      rcases hp with rfl | hp
      · exact ⟨(s, es), by simp, rfl, a5⟩
      · obtain ⟨q, h1, h2, h3⟩ := b6 p hp
        refine ⟨q, by simp [h1], h2, fun e he => ?_⟩
        rcases h3 e he with ⟨key', v1, v', c', h1, h2, h3, n, h4, h5⟩ | h
        · exact .inl ⟨key', v1, v', c', h1, h2, h3, n, a2 n h4, h5⟩
        · exact .inr h

end Verif.Ini
