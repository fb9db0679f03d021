import Verif.Ini.Model
/- The values of the keys: what a history of calls leaves behind. -/
namespace Verif.Ini
open Verif.Chr (toLower)

/-! ## What the caller expects -/

/-- The calls that change values. -/
inductive Op
  | set (k : List UInt8) (v : Option (List UInt8))
  | insert (k : List UInt8) (v : Option (List UInt8))
  | addKey (k : List UInt8)
  | remove (k : List UInt8)
  | removeVals (k : List UInt8)
  | removeAt (k : List UInt8) (i : Nat)
deriving DecidableEq, Repr

/-- The key of a call. -/
def Op.key : Op → List UInt8
  | set k _ | insert k _ | addKey k | remove k | removeVals k | removeAt k _ => k

/-- Names that differ in case only. -/
def Same (a b : List UInt8) : Prop := a.map toLower = b.map toLower

instance (a b : List UInt8) : Decidable (Same a b) := inferInstanceAs (Decidable (_ = _))

/-- Blanks, tabs, dashes and underscores. -/
def Blank (c : UInt8) : Prop := c = 32 ∨ c = 9 ∨ c = 45 ∨ c = 95

instance (c : UInt8) : Decidable (Blank c) := inferInstanceAs (Decidable (_ ∨ _))

/-- The name of a key: without blanks if they are to be ignored. -/
def nameOf (ign : Bool) (k : List UInt8) : List UInt8 := if ign then k.filter (fun c => decide (¬ Blank c)) else k

/-- A key that can have values: not empty, not that of a section. -/
def Valid (k : List UInt8) : Prop := k ≠ [] ∧ k.getLast? ≠ some 47

instance (k : List UInt8) : Decidable (Valid k) := inferInstanceAs (Decidable (_ ∧ _))

/-- If blanks are ignored: no two of them next to each other, and what is left is a key. -/
def Plain (ign : Bool) (k : List UInt8) : Prop := ign = true → (∀ a c d b, k = a ++ c :: d :: b → ¬ (Blank c ∧ Blank d)) ∧ (Valid k → Valid (nameOf true k))

/-- What a call does to the values of its key. -/
def Op.change (vs : List (Option (List UInt8))) : Op → List (Option (List UInt8))
  | set _ v => [v]
  | insert _ v => vs ++ [v]
  | addKey _ => vs
  | remove _ => []
  | removeVals _ => []
  | removeAt _ i => vs.eraseIdx i

/-- The values of a name after a history. -/
def vals (ign : Bool) (n : List UInt8) (ops : List Op) : List (Option (List UInt8)) :=
  ops.foldl (fun vs o => if Valid o.key ∧ Same (nameOf ign o.key) n then o.change vs else vs) []

/-- A name that comes in, if it is not there. -/
def addName (ns : List (List UInt8)) (n : List UInt8) : List (List UInt8) := if ∃ m ∈ ns, Same m n then ns else ns ++ [n]

/-- What a call does to the names. -/
def Op.names (ign : Bool) (ns : List (List UInt8)) : Op → List (List UInt8)
  | set k _ | insert k _ | addKey k => addName ns (nameOf ign k)
  | remove k => ns.filter fun m => decide (¬ Same m (nameOf ign k))
  | removeVals _ | removeAt _ _ => ns

/-- The names after a history, in the order they came in. -/
def names (ign : Bool) (ops : List Op) : List (List UInt8) :=
  ops.foldl (fun ns o => if Valid o.key then o.names ign ns else ns) []

/-- A call, and what it returns. -/
def exec (ini : Ini) : Op → Bool × Ini
  | .set k v => kvSet ini k v
  | .insert k v => kvInsert ini k v
  | .addKey k => kvAddKey ini k
  | .remove k => kvRemove ini k
  | .removeVals k => kvRemoveVals ini k
  | .removeAt k i => kvRemoveAt ini k i

/-- The object after a history. -/
def run (ign : Bool) (ops : List Op) : Ini := ops.foldl (fun ini o => (exec ini o).2) (create ign)

/-! ## Names without blanks -/

theorem isWs_iff (c : UInt8) : isWs c = true ↔ Blank c := by
  simp only [isWs, Blank, decide_eq_true_eq]
  constructor
  · rintro (h | h | h | h) <;> simp [h]
  · rintro (h | h | h | h) <;> simp [h]

theorem deleteWs_plain : ∀ (n : Nat) (k : List UInt8), k.length ≤ n → (∀ a c d b, k = a ++ c :: d :: b → ¬ (Blank c ∧ Blank d)) → deleteWs k = k.filter (fun c => decide (¬ Blank c)) := by
  intro n
  induction n with
  | zero => intro k hk _; cases k with
    | nil => simp [deleteWs]
    | cons _ _ => simp at hk
  | succ n ih =>
    intro k hk h
    cases k with
    | nil => simp [deleteWs]
    | cons c s =>
      simp only [List.length_cons] at hk
      cases s with
      | nil =>
        rw [deleteWs]
        by_cases hc : isWs c = true
        · rw [if_pos hc]; simp [(isWs_iff c).1 hc]
        · have hb : ¬ Blank c := fun e => hc ((isWs_iff c).2 e)
          rw [if_neg hc]; simp [hb]
      | cons d t =>
        rw [deleteWs]
        by_cases hc : isWs c = true
        · rw [if_pos hc]
          have hb := (isWs_iff c).1 hc
          have hd : ¬ Blank d := fun hd => h [] c d t rfl ⟨hb, hd⟩
          simp only [List.length_cons] at hk
          rw [ih t (by omega) (fun a c' d' b e => h (c :: d :: a) c' d' b (by rw [e]; rfl))]
          simp [hb, hd]
        · rw [if_neg hc]
          have hb : ¬ Blank c := fun e => hc ((isWs_iff c).2 e)
          rw [ih (d :: t) (by omega) (fun a c' d' b e => h (c :: a) c' d' b (by rw [e]; rfl))]
          rw [List.filter_cons (x := c), if_pos (by simpa using hb)]

theorem intKey_plain {ign : Bool} {k : List UInt8} (h : Plain ign k) : intKey ign k = nameOf ign k := by
  unfold intKey nameOf
  cases ign with
  | false => rfl
  | true => exact deleteWs_plain _ _ (Nat.le_refl _) (h rfl).1

theorem intKey_idem {ign : Bool} {k : List UInt8} (h : Plain ign k) : intKey ign (intKey ign k) = intKey ign k := by
  cases ign with
  | false => rfl
  | true =>
    rw [intKey_plain h]
    show deleteWs (nameOf true k) = nameOf true k
    have hn : ∀ c ∈ nameOf true k, ¬ Blank c := by
      intro c hc
      simp only [nameOf, if_true, List.mem_filter, decide_eq_true_eq] at hc
      exact hc.2
    rw [deleteWs_plain _ _ (Nat.le_refl _) (fun a c d b e hcd => hn c (by rw [e]; simp) hcd.1)]
    rw [List.filter_eq_self]
    intro c hc
    simpa using hn c hc

theorem nameOf_valid {ign : Bool} {k : List UInt8} (hp : Plain ign k) (hv : Valid k) : Valid (nameOf ign k) := by
  cases ign with
  | false => exact hv
  | true => exact (hp rfl).2 hv

theorem badKey_iff (k : List UInt8) : badKey k = true ↔ ¬ Valid k := by
  simp only [badKey, Valid, decide_eq_true_eq]
  constructor
  · rintro (h | h) ⟨h1, h2⟩
    · exact h1 h
    · exact h2 h
  · intro h
    by_cases h1 : k = []
    · exact .inl h1
    · exact .inr (Classical.byContradiction fun h2 => h ⟨h1, h2⟩)

/-! ## The tables -/

section
variable {α : Type}

theorem fold_same (a b : List UInt8) : fold a = fold b ↔ Same a b := Iff.rfl

theorem look_cons (p : List UInt8 × α) (m : List (List UInt8 × α)) (k : List UInt8) : look (p :: m) k = if Same p.1 k then some p.2 else look m k := by
  unfold look
  rw [List.find?_cons]
  by_cases h : Same p.1 k
  · rw [if_pos h]; simp [(fold_same _ _).2 h]
  · rw [if_neg h]; simp [show ¬ fold p.1 = fold k from h]

theorem look_congr {m : List (List UInt8 × α)} {a b : List UInt8} (h : Same a b) : look m a = look m b := by
  unfold look; rw [(fold_same a b).2 h]

theorem look_none {m : List (List UInt8 × α)} {k : List UInt8} : look m k = none ↔ ¬ ∃ n ∈ m.map (·.1), Same n k := by
  induction m with
  | nil => simp [look]
  | cons p m ih =>
    rw [look_cons]
    by_cases h : Same p.1 k
    · simp only [h, if_true, List.map_cons, List.mem_cons]
      constructor
      · intro e; cases e
      · intro e; exact absurd ⟨p.1, .inl rfl, h⟩ e
    · rw [if_neg h, ih]
      simp only [List.map_cons, List.mem_cons]
      constructor
      · rintro e ⟨n, hn | hn, hs⟩
        · subst hn; exact h hs
        · exact e ⟨n, hn, hs⟩
      · rintro e ⟨n, hn, hs⟩; exact e ⟨n, .inr hn, hs⟩

theorem look_isSome {m : List (List UInt8 × α)} {k : List UInt8} : (look m k).isSome = true ↔ ∃ n ∈ m.map (·.1), Same n k := by
  rw [← Classical.not_not (a := ∃ n ∈ m.map (·.1), Same n k), ← look_none]
  cases look m k <;> simp

theorem look_append (m m' : List (List UInt8 × α)) (k : List UInt8) : look (m ++ m') k = (look m k).or (look m' k) := by
  induction m with
  | nil => simp [look]
  | cons p m ih => rw [List.cons_append, look_cons, look_cons, ih]; split <;> rfl

theorem look_upd (m : List (List UInt8 × α)) (k k' : List UInt8) (v : α) : look (upd m k v) k' = if Same k k' then (look m k').map (fun _ => v) else look m k' := by
  induction m with
  | nil => simp [look, upd]
  | cons p m ih =>
    have e : upd (p :: m) k v = (if fold p.1 = fold k then (p.1, v) else p) :: upd m k v := rfl
    rw [e]
    by_cases h1 : fold p.1 = fold k
    · rw [if_pos h1, look_cons, look_cons, ih]
      by_cases h : Same k k'
      · have : Same p.1 k' := Eq.trans h1 h
        simp [h, this]
      · have : ¬ Same p.1 k' := fun e => h (Eq.trans h1.symm e)
        simp [h, this]
    · rw [if_neg h1, look_cons, look_cons, ih]
      by_cases h : Same k k'
      · have : ¬ Same p.1 k' := fun e => h1 (Eq.trans e h.symm)
        simp [h, this]
      · simp [h]

theorem keys_upd (m : List (List UInt8 × α)) (k : List UInt8) (v : α) : (upd m k v).map (·.1) = m.map (·.1) := by
  simp only [upd, List.map_map]
  apply List.map_congr_left
  intro p _
  simp only [Function.comp_apply]
  split <;> rfl

theorem keys_ins (m : List (List UInt8 × α)) {k : List UInt8} (v : α) (hk : k ≠ []) : (ins m k v).map (·.1) = addName (m.map (·.1)) k := by
  unfold ins addName
  rw [if_neg hk]
  by_cases h : (look m k).isSome = true
  · rw [if_pos h, if_pos (look_isSome.1 h), keys_upd]
  · rw [if_neg h, if_neg (fun e => h (look_isSome.2 e)), List.map_append]; rfl

theorem look_ins (m : List (List UInt8 × α)) (k k' : List UInt8) (v : α) (hk : k ≠ []) : look (ins m k v) k' = if Same k k' then some v else look m k' := by
  unfold ins
  rw [if_neg hk]
  by_cases h : (look m k).isSome = true
  · rw [if_pos h, look_upd]
    by_cases hs : Same k k'
    · rw [if_pos hs, if_pos hs, ← look_congr hs]
      obtain ⟨x, hx⟩ := Option.isSome_iff_exists.1 h
      rw [hx]; rfl
    · rw [if_neg hs, if_neg hs]
  · rw [if_neg h, look_append, look_cons]
    have hn : look m k = none := by simpa using h
    by_cases hs : Same k k'
    · rw [if_pos hs, ← look_congr hs, hn, if_pos hs]; rfl
    · rw [if_neg hs, if_neg hs]
      cases look m k' <;> rfl

theorem look_del (m : List (List UInt8 × α)) (k k' : List UInt8) : look (del m k) k' = if Same k k' then none else look m k' := by
  induction m with
  | nil => simp [look, del]
  | cons p m ih =>
    have e : del (p :: m) k = if fold p.1 ≠ fold k then p :: del m k else del m k := by
      simp only [del, List.filter_cons, decide_eq_true_eq]
    rw [e, look_cons]
    by_cases h : fold p.1 = fold k
    · rw [if_neg (fun hh => hh h), ih]
      by_cases hs : Same k k'
      · rw [if_pos hs, if_pos hs]
      · rw [if_neg hs, if_neg hs, if_neg (fun e : Same p.1 k' => hs (Eq.trans h.symm e))]
    · rw [if_pos h, look_cons, ih]
      by_cases hs : Same k k'
      · rw [if_pos hs, if_pos hs, if_neg (fun e : Same p.1 k' => h (Eq.trans e hs.symm))]
      · rw [if_neg hs, if_neg hs]

theorem keys_del (m : List (List UInt8 × α)) (k : List UInt8) : (del m k).map (·.1) = (m.map (·.1)).filter fun n => decide (¬ Same n k) := by
  simp only [del, List.filter_map]; rfl

end

/-! ## The invariant -/

/-- Names that are pairwise different. -/
def Apart (ns : List (List UInt8)) : Prop := ns.Pairwise fun a b => ¬ Same a b

theorem Same.symm {a b : List UInt8} (h : Same a b) : Same b a := Eq.symm h
theorem Same.trans {a b c : List UInt8} (h : Same a b) (g : Same b c) : Same a c := Eq.trans h g
theorem Same.refl (a : List UInt8) : Same a a := rfl

theorem addName_apart {ns : List (List UInt8)} (h : Apart ns) (n : List UInt8) : Apart (addName ns n) := by
  unfold addName
  split
  · exact h
  · rename_i hn
    rw [Apart, List.pairwise_append]
    refine ⟨h, List.pairwise_singleton _ _, fun a ha b hb e => hn ⟨a, ha, ?_⟩⟩
    rw [List.mem_singleton] at hb
    subst hb; exact e

theorem dropKey_filter {k : List UInt8} : ∀ {ns : List (List UInt8)}, Apart ns → dropKey k ns = ns.filter fun m => decide (¬ Same m k) := by
  intro ns
  induction ns with
  | nil => intro _; rfl
  | cons n ns ih =>
    intro h
    have h := List.pairwise_cons.1 h
    unfold dropKey
    by_cases hk : fold n = fold k
    · rw [if_pos hk, List.filter_cons, if_neg (by simpa using (fold_same n k).1 hk)]
      symm; rw [List.filter_eq_self]
      intro m hm
      simp only [decide_eq_true_eq]
      exact fun e => h.1 m hm (Eq.trans hk e.symm)
    · rw [if_neg hk, List.filter_cons, if_pos (by simpa using (fun e => hk ((fold_same n k).2 e))), ih h.2]

/-- The store holds these names with these values. -/
structure Holds (d : Kvs) (ns : List (List UInt8)) (f : List UInt8 → List (Option (List UInt8))) : Prop where
  keys : d.keys = ns
  dict : d.dict.map (·.1) = ns
  apart : Apart ns
  ne : ∀ n ∈ ns, n ≠ []
  look : ∀ k, look d.dict k = if ∃ n ∈ ns, Same n k then some (f k) else none
  none : ∀ k, (¬ ∃ n ∈ ns, Same n k) → f k = []

theorem Holds.getD {d : Kvs} {ns : List (List UInt8)} {f : List UInt8 → List (Option (List UInt8))} (h : Holds d ns f) (k : List UInt8) : (Ini.look d.dict k).getD [] = f k := by
  rw [h.look]
  split
  · rfl
  · rename_i hn; rw [h.none k hn]; rfl

theorem holds_create : Holds Kvs.create [] (fun _ => []) := ⟨rfl, rfl, List.Pairwise.nil, by simp, by simp [Kvs.create, look], fun _ _ => rfl⟩

theorem addName_mem {ns : List (List UInt8)} {n : List UInt8} {k : List UInt8} : (∃ m ∈ addName ns n, Same m k) ↔ (∃ m ∈ ns, Same m k) ∨ Same n k := by
  unfold addName
  split
  · rename_i h
    obtain ⟨m, hm, hs⟩ := h
    exact ⟨.inl, fun e => e.elim id fun e => ⟨m, hm, hs.trans e⟩⟩
  · simp only [List.mem_append, List.mem_singleton]
    constructor
    · rintro ⟨m, hm | hm, hs⟩
      · exact .inl ⟨m, hm, hs⟩
      · subst hm; exact .inr hs
    · rintro (⟨m, hm, hs⟩ | hs)
      · exact ⟨m, .inl hm, hs⟩
      · exact ⟨n, .inr rfl, hs⟩

theorem addName_mem' {ns : List (List UInt8)} {n m : List UInt8} (h : m ∈ addName ns n) : m ∈ ns ∨ m = n := by
  unfold addName at h
  split at h
  · exact .inl h
  · simpa using h

theorem Holds.has {d : Kvs} {ns : List (List UInt8)} {f : List UInt8 → List (Option (List UInt8))} (h : Holds d ns f) (k : List UInt8) : d.has k = true ↔ ∃ n ∈ ns, Same n k := by
  unfold Kvs.has
  rw [h.look]
  split <;> simp_all

theorem Holds.ensure {d : Kvs} {ns : List (List UInt8)} {f : List UInt8 → List (Option (List UInt8))} (h : Holds d ns f) {k : List UInt8} (hk : k ≠ []) : Holds (d.ensure k) (addName ns k) f := by
  unfold Kvs.ensure
  by_cases hh : d.has k = true
  · rw [if_pos hh]
    have : addName ns k = ns := if_pos ((h.has k).1 hh)
    rw [this]; exact h
  · rw [if_neg hh]
    have hn : ¬ ∃ n ∈ ns, Same n k := fun e => hh ((h.has k).2 e)
    refine ⟨?_, ?_, addName_apart h.apart k, ?_, ?_, ?_⟩
    · show d.keys ++ [k] = _
      rw [h.keys, addName, if_neg hn]
    · show (ins d.dict k []).map (·.1) = _
      rw [keys_ins _ _ hk, h.dict]
    · intro n hn'
      rcases addName_mem' hn' with e | e
      · exact h.ne n e
      · rw [e]; exact hk
    · intro k'
      show Ini.look (ins d.dict k []) k' = _
      rw [look_ins _ _ _ _ hk]
      by_cases hs : Same k k'
      · rw [if_pos hs, if_pos (addName_mem.2 (.inr hs)), h.none k' (fun ⟨n, a, b⟩ => hn ⟨n, a, b.trans hs.symm⟩)]
      · rw [if_neg hs, h.look]
        by_cases h1 : ∃ n ∈ ns, Same n k'
        · rw [if_pos h1, if_pos (addName_mem.2 (.inl h1))]
        · rw [if_neg h1, if_neg (fun e => (addName_mem.1 e).elim h1 hs)]
    · intro k' hk'
      exact h.none k' fun e => hk' (addName_mem.2 (.inl e))

theorem Holds.upd {d : Kvs} {ns : List (List UInt8)} {f : List UInt8 → List (Option (List UInt8))} (h : Holds d ns f) {k : List UInt8} (hk : ∃ n ∈ ns, Same n k) (vs : List (Option (List UInt8))) :
    Holds { d with dict := upd d.dict k vs } ns (fun k' => if Same k k' then vs else f k') := by
  refine ⟨h.keys, (keys_upd _ _ _).trans h.dict, h.apart, h.ne, ?_, ?_⟩
  · intro k'
    show Ini.look (Ini.upd d.dict k vs) k' = _
    rw [look_upd, h.look]
    by_cases hs : Same k k'
    · obtain ⟨n, hn, e⟩ := hk
      have hx : ∃ n ∈ ns, Same n k' := ⟨n, hn, e.trans hs⟩
      simp [hs, hx]
    · simp [hs]
  · intro k' hk'
    by_cases hs : Same k k'
    · obtain ⟨n, hn, e⟩ := hk
      exact absurd ⟨n, hn, e.trans hs⟩ hk'
    · simp only [hs, if_false]; exact h.none k' hk'

theorem Holds.congr {d : Kvs} {ns : List (List UInt8)} {f g : List UInt8 → List (Option (List UInt8))} (h : Holds d ns f) (e : ∀ k, f k = g k) : Holds d ns g := by
  have : f = g := funext e
  rw [← this]; exact h

/-- All names equal up to case have the same values. -/
def Ok (f : List UInt8 → List (Option (List UInt8))) : Prop := ∀ a b, Same a b → f a = f b

theorem Holds.ok {d : Kvs} {ns : List (List UInt8)} {f : List UInt8 → List (Option (List UInt8))} (h : Holds d ns f) : Ok f := by
  intro a b e
  rw [← h.getD a, ← h.getD b, look_congr e]

theorem Holds.insert {d : Kvs} {ns : List (List UInt8)} {f : List UInt8 → List (Option (List UInt8))} (h : Holds d ns f) {k : List UInt8} (hk : k ≠ []) (v : Option (List UInt8)) :
    (d.insert k v).1 = true ∧ Holds (d.insert k v).2 (addName ns k) (fun k' => if Same k k' then f k' ++ [v] else f k') := by
  have h1 := h.ensure hk
  unfold Kvs.insert
  have e : Ini.look (d.ensure k).dict k = some (f k) := by rw [h1.look, if_pos (addName_mem.2 (.inr (Same.refl k)))]
  simp only [e]
  refine ⟨trivial, (h1.upd (addName_mem.2 (.inr (Same.refl k))) (f k ++ [v])).congr ?_⟩
  intro k'
  split
  · rename_i hs; rw [h.ok k k' hs]
  · rfl

theorem upd_none {α : Type} {m : List (List UInt8 × α)} {k : List UInt8} (v : α) (h : look m k = none) : upd m k v = m := by
  have h := look_none.1 h
  unfold upd
  conv => rhs; rw [← List.map_id m]
  apply List.map_congr_left
  intro p hp
  rw [if_neg (fun e : fold p.1 = fold k => h ⟨p.1, List.mem_map_of_mem hp, e⟩)]; rfl

theorem Holds.removeAll {d : Kvs} {ns : List (List UInt8)} {f : List UInt8 → List (Option (List UInt8))} (h : Holds d ns f) (k : List UInt8) :
    Holds (d.removeAll k) ns (fun k' => if Same k k' then [] else f k') := by
  unfold Kvs.removeAll
  by_cases hk : ∃ n ∈ ns, Same n k
  · exact h.upd hk []
  · rw [upd_none [] (by rw [h.look, if_neg hk])]
    refine h.congr fun k' => ?_
    split
    · rename_i hs; exact h.none k' (fun ⟨n, a, b⟩ => hk ⟨n, a, b.trans hs.symm⟩)
    · rfl

theorem Holds.set {d : Kvs} {ns : List (List UInt8)} {f : List UInt8 → List (Option (List UInt8))} (h : Holds d ns f) {k : List UInt8} (hk : k ≠ []) (v : Option (List UInt8)) :
    (d.set k v).1 = true ∧ Holds (d.set k v).2 (addName ns k) (fun k' => if Same k k' then [v] else f k') := by
  have h1 := (h.removeAll k).insert hk v
  refine ⟨h1.1, h1.2.congr fun k' => ?_⟩
  by_cases hs : Same k k' <;> simp [hs]

theorem Holds.removeAt {d : Kvs} {ns : List (List UInt8)} {f : List UInt8 → List (Option (List UInt8))} (h : Holds d ns f) (k : List UInt8) (i : Nat) :
    ((d.removeAt k i).1 = decide (i < (f k).length)) ∧ Holds (d.removeAt k i).2 ns (fun k' => if Same k k' then (f k').eraseIdx i else f k') := by
  unfold Kvs.removeAt
  rw [h.look]
  by_cases hk : ∃ n ∈ ns, Same n k
  · rw [if_pos hk]
    dsimp only
    by_cases hi : i < (f k).length
    · rw [if_pos hi]
      refine ⟨by simp [hi], (h.upd hk _).congr fun k' => ?_⟩
      split
      · rename_i hs; rw [h.ok k k' hs]
      · rfl
    · rw [if_neg hi]
      refine ⟨by simp [hi], h.congr fun k' => ?_⟩
      split
      · rename_i hs
        rw [List.eraseIdx_of_length_le]
        rw [← h.ok k k' hs]; omega
      · rfl
  · rw [if_neg hk]
    refine ⟨by rw [h.none k hk]; simp, h.congr fun k' => ?_⟩
    split
    · rename_i hs
      rw [h.none k' (fun ⟨n, a, b⟩ => hk ⟨n, a, b.trans hs.symm⟩)]; rfl
    · rfl

theorem Holds.remove {d : Kvs} {ns : List (List UInt8)} {f : List UInt8 → List (Option (List UInt8))} (h : Holds d ns f) (k : List UInt8) :
    ((d.remove k).1 = decide (∃ n ∈ ns, Same n k)) ∧ Holds (d.remove k).2 (ns.filter fun m => decide (¬ Same m k)) (fun k' => if Same k k' then [] else f k') := by
  unfold Kvs.remove
  by_cases hk : ∃ n ∈ ns, Same n k
  · rw [if_pos]
    · refine ⟨by rw [Bool.eq_iff_iff, h.has]; simp, ?_, ?_, ?_, ?_, ?_, ?_⟩
      · show dropKey k d.keys = _
        rw [h.keys, dropKey_filter h.apart]
      · show (del d.dict k).map (·.1) = _
        rw [keys_del, h.dict]
      · exact List.Pairwise.filter _ h.apart
      · intro n hn; exact h.ne n (List.mem_filter.1 hn).1
      · intro k'
        show Ini.look (del d.dict k) k' = _
        rw [look_del, h.look]
        by_cases hs : Same k k'
        · rw [if_pos hs, if_neg]
          rintro ⟨n, hn, e⟩
          simp only [List.mem_filter, decide_eq_true_eq] at hn
          exact hn.2 (e.trans hs.symm)
        · rw [if_neg hs]
          simp only [hs, if_false]
          by_cases h1 : ∃ n ∈ ns, Same n k'
          · rw [if_pos h1, if_pos]
            obtain ⟨n, hn, e⟩ := h1
            exact ⟨n, List.mem_filter.2 ⟨hn, by simpa using fun e' => hs (e'.symm.trans e)⟩, e⟩
          · rw [if_neg h1, if_neg]
            rintro ⟨n, hn, e⟩
            exact h1 ⟨n, (List.mem_filter.1 hn).1, e⟩
      · intro k' hk'
        by_cases hs : Same k k'
        · simp [hs]
        · simp only [hs, if_false]
          apply h.none
          rintro ⟨n, hn, e⟩
          exact hk' ⟨n, List.mem_filter.2 ⟨hn, by simpa using fun e' => hs (e'.symm.trans e)⟩, e⟩
    · rw [h.keys, List.any_eq_true]
      obtain ⟨n, hn, e⟩ := hk
      exact ⟨n, hn, decide_eq_true (p := fold n = fold k) e⟩
  · rw [if_neg]
    · refine ⟨by simp [hk], ?_⟩
      have e : (ns.filter fun m => decide (¬ Same m k)) = ns := by
        rw [List.filter_eq_self]
        intro n hn
        simp only [decide_eq_true_eq]
        exact fun e => hk ⟨n, hn, e⟩
      rw [e]
      refine h.congr fun k' => ?_
      split
      · rename_i hs; exact h.none k' (fun ⟨n, a, b⟩ => hk ⟨n, a, b.trans hs.symm⟩)
      · rfl
    · rw [h.keys, List.any_eq_true]
      rintro ⟨n, hn, e⟩
      exact hk ⟨n, hn, of_decide_eq_true (p := fold n = fold k) e⟩

end Verif.Ini
