import Verif.Ini.Store
/- Copies of the values. -/
namespace Verif.Ini
open Verif.Chr (toLower)

theorem Same.rfl' {a : List UInt8} : Same a a := rfl

theorem addName_same (ns : List (List UInt8)) (n : List UInt8) : addName (addName ns n) n = addName ns n := by
  by_cases h : ∃ m ∈ ns, Same m n
  · rw [show addName ns n = ns from if_pos h, if_pos h |> (fun e : addName ns n = ns => e)]
  · have e : addName ns n = ns ++ [n] := if_neg h
    rw [e]
    exact if_pos ⟨n, by simp, rfl⟩

/-- Inserting values one after the other. -/
theorem Holds.inserts {d : Kvs} {ns : List (List UInt8)} {f : List UInt8 → List (Option (List UInt8))} {n : List UInt8} (hn : n ≠ []) (vs : List (Option (List UInt8))) (hv : vs ≠ [])
    (h : Holds d ns f) : Holds ((vs.map fun v => (n, v)).foldl (fun o p => (o.insert p.1 p.2).2) d) (addName ns n) (fun k => if Same n k then f k ++ vs else f k) := by
  induction vs generalizing d ns f with
  | nil => exact absurd rfl hv
  | cons v vs ih =>
    have h1 := (h.insert hn v).2
    simp only [List.map_cons, List.foldl_cons]
    by_cases hvs : vs = []
    · subst hvs; exact h1
    · have h2 := ih hvs h1
      rw [addName_same] at h2
      refine h2.congr fun k => ?_
      by_cases hs : Same n k
      · simp [hs]
      · simp [hs]

/-- The values of a key in a copy: a null pointer where there was none. -/
def copied (vs : List (Option (List UInt8))) : List (Option (List UInt8)) := if vs = [] then [none] else vs

theorem copied_ne (vs : List (Option (List UInt8))) : copied vs ≠ [] := by
  unfold copied; split <;> simp_all

theorem Holds.enum {d : Kvs} {ns : List (List UInt8)} {f : List UInt8 → List (Option (List UInt8))} (h : Holds d ns f) :
    d.enum = ns.flatMap fun k => (copied (f k)).map fun v => (k, v) := by
  unfold Kvs.enum
  have hl : d.dict.length = ns.length := by rw [← h.dict, List.length_map]
  rw [h.keys, hl, List.take_length]
  have aux : ∀ l : List (List UInt8), (∀ n ∈ l, n ∈ ns) → (l.flatMap fun k => match Ini.look d.dict k with | some (v :: vs) => (v :: vs).map (fun v => (k, v)) | _ => [(k, Option.none)]) =
      l.flatMap fun k => (copied (f k)).map fun v => (k, v) := by
    intro l hl
    induction l with
    | nil => rfl
    | cons n l ih =>
      rw [List.flatMap_cons, List.flatMap_cons, ih fun m hm => hl m (by simp [hm])]
      congr 1
      rw [h.look, if_pos ⟨n, hl n (by simp), rfl⟩]
      cases hf : f n <;> rfl
  exact aux ns fun n hn => hn

theorem Holds.copies {f : List UInt8 → List (Option (List UInt8))} (hf : Ok f) (l pre : List (List UInt8)) (d : Kvs) (ha : Apart (pre ++ l)) (hne : ∀ n ∈ pre ++ l, n ≠ [])
    (h : Holds d pre (fun k => if ∃ n ∈ pre, Same n k then copied (f k) else [])) :
    Holds ((l.flatMap fun k => (copied (f k)).map fun v => (k, v)).foldl (fun o p => (o.insert p.1 p.2).2) d) (pre ++ l)
      (fun k => if ∃ n ∈ pre ++ l, Same n k then copied (f k) else []) := by
  induction l generalizing pre d with
  | nil => simpa using h
  | cons n l ih =>
    rw [List.flatMap_cons, List.foldl_append]
    have hno : ¬ ∃ m ∈ pre, Same m n := by
      rintro ⟨m, hm, hs⟩
      have := List.pairwise_append.1 ha
      exact this.2.2 m hm n (by simp) hs
    have h1 := h.inserts (hne n (by simp)) (copied (f n)) (copied_ne _)
    have e : addName pre n = pre ++ [n] := if_neg hno
    rw [e] at h1
    have h2 := ih (pre ++ [n]) _ (by simpa using ha) (by simpa using hne) (h1.congr (g := fun k => if ∃ m ∈ pre ++ [n], Same m k then copied (f k) else []) ?_)
    · have e2 : pre ++ [n] ++ l = pre ++ n :: l := by simp
      rw [e2] at h2
      exact h2
    · intro k
      by_cases hs : Same n k
      · have hnp : ¬ ∃ m ∈ pre, Same m k := fun ⟨m, hm, hx⟩ => hno ⟨m, hm, Eq.trans hx (Eq.symm hs)⟩
        rw [if_pos hs, if_neg hnp, if_pos ⟨n, by simp, hs⟩, List.nil_append, hf n k hs]
      · rw [if_neg hs]
        by_cases hp : ∃ m ∈ pre, Same m k
        · rw [if_pos hp, if_pos (let ⟨m, hm, hx⟩ := hp; ⟨m, by simp [hm], hx⟩)]
        · rw [if_neg hp, if_neg]
          rintro ⟨m, hm, hx⟩
          rcases List.mem_append.1 hm with hm | hm
          · exact hp ⟨m, hm, hx⟩
          · rw [List.mem_singleton.1 hm] at hx; exact hs hx

/-- A copy of the values. -/
theorem Holds.duplicate {d : Kvs} {ns : List (List UInt8)} {f : List UInt8 → List (Option (List UInt8))} (h : Holds d ns f) :
    Holds d.duplicate ns (fun k => if ∃ n ∈ ns, Same n k then copied (f k) else []) := by
  unfold Kvs.duplicate
  rw [h.enum]
  have := Holds.copies (f := f) h.ok ns [] Kvs.create (by simpa using h.apart) (by simpa using h.ne) (by simpa using holds_create)
  simpa using this

end Verif.Ini
