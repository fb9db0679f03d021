import Verif.Queue.Model
import Verif.LList.Props
import Verif.Hash.AsMap
/- Property C13: the queue holds each member once and serves members in insertion order. -/
namespace Verif.Queue

open Verif

/-! ### Specification: a queue is a duplicate-free sequence of members (non-null pointers). -/

inductive Op where
  | insert (m : Nat)
  | remove (m : Nat)
  | exists' (m : Nat)
  | len
  | first
  | takeFirst
  | last
  | foreach

inductive Res where
  | bool (b : Bool)
  | num (n : Nat)
  | ptr (m : Nat)
  | members (l : List Nat)
deriving DecidableEq

def spec (s : List Nat) : Op → Res × List Nat
  | .insert m => if m = 0 ∨ m ∈ s then (.bool false, s) else (.bool true, s ++ [m])
  | .remove m => (.bool (decide (m ∈ s)), s.filter (· ≠ m))
  | .exists' m => (.bool (decide (m ∈ s)), s)
  | .len => (.num s.length, s)
  | .first => (.ptr (s.head?.getD 0), s)
  | .takeFirst => (.ptr (s.head?.getD 0), s.tail)
  | .last => (.ptr (s.getLast?.getD 0), s)
  | .foreach => (.members s, s)

def specRun (s : List Nat) : List Op → List Res × List Nat
  | [] => ([], s)
  | op :: ops => let r := specRun (spec s op).2 ops; ((spec s op).1 :: r.1, r.2)

/-! ### Execution of the model -/

def step (hf : Nat → Nat) (q : Q) : Op → Option (Res × Q)
  | .insert m => (insert hf q m).map fun r => (.bool r.1, r.2)
  | .remove m => (remove hf q m).map fun r => (.bool r.1, r.2)
  | .exists' m => (exists' hf q m).map fun r => (.bool r, q)
  | .len => some (.num (len q), q)
  | .first => (first q).map fun r => (.ptr r, q)
  | .takeFirst => (takeFirst hf q).map fun r => (.ptr r.1, r.2)
  | .last => (last q).map fun r => (.ptr r, q)
  | .foreach => (foreachAll q (q.list.elements + 2) .start).map fun r => (.members r, q)

def run (hf : Nat → Nat) (q : Q) : List Op → Option (List Res × Q)
  | [] => some ([], q)
  | op :: ops => (step hf q op).bind fun r => (run hf r.2 ops).map fun r' => (r.1 :: r'.1, r'.2)

/-! ### Proof -/

theorem vpCmp_eq (a b : Nat) : vpCmp a b = 0 ↔ a = b := by unfold vpCmp; split <;> (try split) <;> omega

theorem cfg_lawful (hf : Nat → Nat) : Hash.Lawful (cfg hf) := by
  refine ⟨⟨?_, ?_⟩, ?_, ?_⟩
  · intro a b; simp only [cfg, vpCmp]; split <;> split <;> (try split) <;> (try split) <;> omega
  · intro a b c; simp only [cfg, vpCmp]; split <;> split <;> (try split) <;> (try split) <;> (try split) <;> (try split) <;> omega
  · intro a b h; rw [show a = b from (vpCmp_eq a b).1 h]
  · intro h; cases h

/-- Where member `k` sits. -/
def loc (t : List (Nat × Nat)) (k : Nat) : Option Nat := (t.find? fun p => decide (p.2 = k)).map (·.1)

structure Inv (hf : Nat → Nat) (q : Q) (s : List Nat) (t : List (Nat × Nat)) : Prop where
  rep : LList.Rep q.list t
  vals : t.map (·.2) = s
  lin : q.list.circular = false
  maps : Hash.Maps (cfg hf) q.hash (loc t)
  nodup : s.Nodup
  nonnull : 0 ∉ s

theorem loc_none {t : List (Nat × Nat)} {k : Nat} (h : k ∉ t.map (·.2)) : loc t k = none := by
  simp only [loc, Option.map_eq_none_iff, List.find?_eq_none, decide_eq_true_eq]
  rintro p hp rfl
  exact h (List.mem_map.2 ⟨p, hp, rfl⟩)

theorem loc_some {t : List (Nat × Nat)} {k : Nat} (h : k ∈ t.map (·.2)) (hn : (t.map (·.2)).Nodup) :
    ∃ A p B, t = A ++ (p, k) :: B ∧ loc t k = some p ∧ k ∉ A.map (·.2) ∧ k ∉ B.map (·.2) := by
  obtain ⟨⟨p, k'⟩, hp, rfl⟩ := List.mem_map.1 h
  obtain ⟨A, B, rfl⟩ := List.append_of_mem hp
  have : k' ∉ A.map (·.2) ∧ k' ∉ B.map (·.2) := by
    simp [List.nodup_append] at hn ⊢
    grind
  refine ⟨A, p, B, rfl, ?_, this⟩
  have ha : A.find? (fun p => decide (p.2 = k')) = none := by
    have := loc_none this.1
    simpa [loc] using this
  simp [loc, ha]

theorem removeMaps {hf : Nat → Nat} {h : Hash.HT Nat Nat} {A B : List (Nat × Nat)} {p k : Nat}
    (hm : Hash.Maps (cfg hf) h (loc (A ++ (p, k) :: B))) (ha : k ∉ A.map (·.2)) (hb : k ∉ B.map (·.2)) :
    ∃ b h', Hash.remove (cfg hf) h k = some (b, h') ∧ Hash.Maps (cfg hf) h' (loc (A ++ B)) := by
  obtain ⟨h', k1, k2⟩ := hm.remove (cfg_lawful hf) rfl k
  refine ⟨_, h', k1, k2.congr fun k' => ?_⟩
  simp only [cfg, vpCmp_eq]
  split
  next h =>
    subst h
    rw [loc_none]
    simp only [List.map_append, List.mem_append]
    exact fun h => h.elim ha hb
  next h =>
    simp [loc, List.find?_append, List.find?_cons, h]

theorem foreach_loop {q : Q} (fuel : Nat) : ∀ {S T : List (Nat × Nat)} {p w}, LList.Rep q.list (S ++ (p, w) :: T) →
    q.list.circular = false → T.length + 1 < fuel →
    foreachAll q fuel (.node p) = some (w :: T.map (·.2)) := by
  induction fuel with
  | zero => intro S T p w _ _ h; omega
  | succ fuel ih =>
    intro S T p w hr hl hf
    have hv : q.list.val p = some w := hr.vals (p, w) (by simp)
    have hn := hr.next_eq
    rw [hl] at hn
    simp only [foreachAll, foreach, hv, hn, bind, Option.bind_some]
    cases T with
    | nil =>
      simp only [List.head?_nil, Option.map_none, Bool.false_eq_true, if_false]
      cases fuel with
      | zero => simp at hf
      | succ fuel => simp [foreachAll, foreach]
    | cons e T =>
      obtain ⟨p', w'⟩ := e
      have := ih (S := S ++ [(p, w)]) (T := T) (p := p') (w := w') (by simpa using hr) hl (by simpa using hf)
      simp [LList.nx, this]

theorem sim_step {hf : Nat → Nat} {q : Q} {s t} (I : Inv hf q s t) (op : Op) :
    ∃ q' t', step hf q op = some ((spec s op).1, q') ∧ Inv hf q' (spec s op).2 t' := by
  obtain ⟨hrep, hv, hl, hm, hnd, hnn⟩ := I
  subst hv
  have I : Inv hf q (t.map (·.2)) t := ⟨hrep, rfl, hl, hm, hnd, hnn⟩
  have hget := hm.get (cfg_lawful hf) rfl
  cases op with
  | insert m =>
    by_cases h0 : m = 0
    · exact ⟨q, t, by simp [step, insert, spec, h0], by simpa [spec, h0] using I⟩
    by_cases hin : m ∈ t.map (·.2)
    · obtain ⟨A, p, B, _, h2, _⟩ := loc_some hin hnd
      have hsp : spec (t.map (·.2)) (.insert m) = (.bool false, t.map (·.2)) := by
        simp only [spec]; rw [if_pos (Or.inr hin)]
      rw [hsp]
      exact ⟨q, t, by simp [step, insert, h0, hget, h2], I⟩
    · have hsp : spec (t.map (·.2)) (.insert m) = (.bool true, t.map (·.2) ++ [m]) := by
        simp only [spec]; rw [if_neg (by rw [not_or]; exact ⟨h0, hin⟩)]
      rw [hsp]
      obtain ⟨l', k1, k2, k3⟩ := LList.insert_spec hrep m
      obtain ⟨h', j1, j2⟩ := hm.insert (cfg_lawful hf) rfl m q.list.fresh
      refine ⟨{ list := l', hash := h' }, t ++ [(q.list.fresh, m)], ?_, k2, by simp, by rw [k3, hl], j2.congr fun k => ?_, ?_, ?_⟩
      · simp [step, insert, h0, hget, loc_none hin, k1, j1]
      · simp only [cfg, vpCmp_eq]
        split
        next h =>
          subst h
          have := loc_none hin
          simp only [loc, Option.map_eq_none_iff] at this
          simp [loc, List.find?_append, this]
        next h => simp [loc, List.find?_append, List.find?_cons, h]
      · rw [List.nodup_append]
        exact ⟨hnd, by simp, by grind⟩
      · simp only [List.mem_append, List.mem_singleton, not_or]
        exact ⟨hnn, Ne.symm h0⟩
  | remove m =>
    by_cases h0 : m = 0
    · subst h0
      refine ⟨q, t, by simp only [step, remove, spec, hnn]; simp, ?_⟩
      have : (spec (t.map (·.2)) (.remove 0)).2 = t.map (·.2) := by
        simp only [spec]; rw [List.filter_eq_self]
        intro a ha; simp only [decide_eq_true_eq]; rintro rfl; exact hnn ha
      rw [this]; exact I
    by_cases hin : m ∈ t.map (·.2)
    · obtain ⟨A, p, B, rfl, h2, ha, hb⟩ := loc_some hin hnd
      obtain ⟨l', k1, k2, k3⟩ := LList.take_spec hrep (by simp [hl])
      obtain ⟨b, h', j1, j2⟩ := removeMaps hm ha hb
      have hs : (spec ((A ++ (p, m) :: B).map (·.2)) (.remove m)).2 = (A ++ B).map (·.2) := by
        simp only [spec, List.map_append, List.map_cons, List.filter_append]
        rw [List.filter_cons_of_neg (by simp), List.filter_eq_self.2, List.filter_eq_self.2]
        · intro a h; simp only [decide_eq_true_eq]; rintro rfl; exact hb h
        · intro a h; simp only [decide_eq_true_eq]; rintro rfl; exact ha h
      refine ⟨{ list := l', hash := h' }, A ++ B, ?_, k2, hs.symm, by rw [k3, hl], j2, ?_, ?_⟩
      · simp only [step, remove, if_neg h0, hget, h2, k1, j1, bind, Option.bind_some, Option.map_some, spec]
        rw [decide_eq_true hin]
      · rw [hs]; simp [List.nodup_append] at hnd ⊢; grind
      · rw [hs]; simp at hnn ⊢; grind
    · have hs : (spec (t.map (·.2)) (.remove m)) = (.bool false, t.map (·.2)) := by
        simp only [spec]; rw [List.filter_eq_self.2, decide_eq_false hin]
        intro a ha; simp only [decide_eq_true_eq]; rintro rfl; exact hin ha
      rw [hs]
      exact ⟨q, t, by simp [step, remove, h0, hget, loc_none hin], I⟩
  | exists' m =>
    refine ⟨q, t, ?_, I⟩
    by_cases h0 : m = 0
    · subst h0; simp only [step, exists', spec, hnn]; simp
    by_cases hin : m ∈ t.map (·.2)
    · obtain ⟨A, p, B, _, h2, _⟩ := loc_some hin hnd
      simp only [step, exists', spec, if_neg h0, hget, h2, hin]; simp
    · simp only [step, exists', spec, if_neg h0, hget, loc_none hin, hin]; simp
  | len => exact ⟨q, t, by simp [step, spec, len, hrep.len], I⟩
  | first =>
    refine ⟨q, t, ?_, I⟩
    simp only [step, first, hrep.str.head, spec]
    cases t with
    | nil => rfl
    | cons e t => simp [nodeVal, hrep.vals e (by simp)]
  | last =>
    refine ⟨q, t, ?_, I⟩
    simp only [step, last, hrep.str.tail, spec]
    rcases List.eq_nil_or_concat t with rfl | ⟨A, e, rfl⟩
    · rfl
    · rw [List.concat_eq_append] at *
      simp [nodeVal, hrep.vals e (by simp)]
  | takeFirst =>
    cases t with
    | nil =>
      refine ⟨q, [], ?_, I⟩
      simp [step, takeFirst, hrep.str.head, spec]
    | cons e t =>
      obtain ⟨p, m⟩ := e
      obtain ⟨l', k1, k2, k3⟩ := LList.take_spec (A := []) (B := t) hrep (by simp [hl])
      have hb : m ∉ t.map (·.2) := by simp at hnd ⊢; grind
      obtain ⟨b, h', j1, j2⟩ := removeMaps (A := []) (B := t) hm (by simp) hb
      refine ⟨{ list := l', hash := h' }, t, ?_, k2, by simp [spec], by rw [k3, hl], j2, ?_, ?_⟩
      · simp [step, takeFirst, hrep.str.head, spec, k1, j1]
      · simp [spec] at hnd ⊢; grind
      · simp [spec] at hnn ⊢; grind
  | foreach =>
    refine ⟨q, t, ?_, I⟩
    have hh := hrep.str.head
    cases t with
    | nil => simp [step, foreachAll, foreach, hh, spec]
    | cons e t =>
      obtain ⟨p, m⟩ := e
      have := foreach_loop (q := q) (q.list.elements + 2) (S := []) hrep hl (by have := hrep.len; simp at this; omega)
      have heq : foreachAll q (q.list.elements + 2) .start = foreachAll q (q.list.elements + 2) (.node p) := by
        simp [foreachAll, foreach, hh]
      simp only [step, heq, this, spec]
      rfl

theorem sim_run {hf : Nat → Nat} (ops : List Op) : ∀ {q : Q} {s t}, Inv hf q s t →
    ∃ q' t', run hf q ops = some ((specRun s ops).1, q') ∧ Inv hf q' (specRun s ops).2 t' := by
  induction ops with
  | nil => intro q s t I; exact ⟨q, t, rfl, I⟩
  | cons op ops ih =>
    intro q s t I
    obtain ⟨q1, t1, h1, I1⟩ := sim_step I op
    obtain ⟨q2, t2, h2, I2⟩ := ih I1
    exact ⟨q2, t2, by simp only [run, h1, Option.bind_some, h2, specRun]; rfl, I2⟩

/-- C13 for queues without comparator: whatever the history and the hash function, every call returns what the
duplicate-free sequence returns; in particular no member is held twice, membership agrees with `exists`, and members are
taken in insertion order.  Missing: queues with a comparator. -/
theorem queue_correct_partial (hf : Nat → Nat) (ops : List Op) :
    ∃ q q', create hf = some q ∧ run hf q ops = some ((specRun [] ops).1, q') ∧ (specRun [] ops).2.Nodup := by
  obtain ⟨h, h1, h2⟩ := Hash.Maps.create (c := cfg hf) (show 75 < 100 by decide) rfl rfl rfl rfl
  have I : Inv hf { list := LList.create false, hash := h } [] [] :=
    ⟨LList.create_rep false, rfl, rfl, h2.congr fun _ => rfl, by simp, by simp⟩
  obtain ⟨q', t', k1, k2⟩ := sim_run ops I
  exact ⟨_, q', by unfold create; rw [h1]; rfl, k1, k2.nodup⟩

/-- A history with duplicates, removals from the middle and an empty queue. -/
example : (specRun [] [.insert 7, .insert 9, .insert 7, .insert 4, .remove 9, .foreach, .takeFirst, .exists' 9, .takeFirst,
    .takeFirst]).1 = [.bool true, .bool true, .bool false, .bool true, .bool true, .members [7, 4], .ptr 7, .bool false,
    .ptr 4, .ptr 0] := by decide

end Verif.Queue
