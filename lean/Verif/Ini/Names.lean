import Verif.Ini.Kvs
/- The printed names of the keys. -/
namespace Verif.Ini
open Verif.Chr (toLower isUpper)

theorem toLower_slash (c : UInt8) : toLower c = 47 ↔ c = 47 := by
  unfold toLower isUpper
  simp only [Bool.and_eq_true, decide_eq_true_eq, UInt8.le_iff_toNat_le, ← UInt8.toNat_inj, UInt8.reduceToNat]
  split
  · rw [UInt8.toNat_add]
    simp only [UInt8.reduceToNat]
    omega
  · simp [← UInt8.toNat_inj]

theorem same_slash {a b : List UInt8} (h : Same a b) : (47 ∈ a ↔ 47 ∈ b) := by
  have key : ∀ l : List UInt8, 47 ∈ l ↔ (47 : UInt8) ∈ l.map toLower := by
    intro l
    rw [List.mem_map]
    constructor
    · exact fun h => ⟨47, h, (toLower_slash 47).2 rfl⟩
    · rintro ⟨c, hc, e⟩; rw [(toLower_slash c).1 e] at hc; exact hc
  rw [key a, key b, show a.map toLower = b.map toLower from h]

theorem same_last {a b : List UInt8} (h : Same a b) : a.getLast? = some 47 ↔ b.getLast? = some 47 := by
  have key : ∀ l : List UInt8, l.getLast? = some 47 ↔ (l.map toLower).getLast? = some 47 := by
    intro l
    rw [List.getLast?_map]
    cases l.getLast? with
    | none => simp
    | some c => simp [toLower_slash]
  rw [key a, key b, show a.map toLower = b.map toLower from h]

theorem same_valid {a b : List UInt8} (h : Same a b) : Valid a ↔ Valid b := by
  unfold Valid
  have hl := same_last h
  have : a = [] ↔ b = [] := by
    have e := congrArg List.length (show a.map toLower = b.map toLower from h)
    simp only [List.length_map] at e
    rw [← List.length_eq_zero_iff, e, List.length_eq_zero_iff]
  rw [Ne, Ne, Ne, Ne, this, hl]

/-- A section and a key in it. -/
theorem splitKey_slash {s r : List UInt8} (h : 47 ∉ s) : splitKey (s ++ 47 :: r) = (some s, if r = [] then none else some r) := by
  unfold splitKey
  rw [if_neg (by simp), if_neg (by simp)]
  have e : (s ++ 47 :: r).takeWhile (· ≠ 47) = s := by
    rw [List.takeWhile_append_of_pos]
    · simp
    · intro c hc
      simp only [ne_eq, decide_eq_true_eq]
      rintro rfl; exact h hc
  dsimp only
  rw [e]
  have e2 : (s ++ 47 :: r).drop (s.length + 1) = r := by
    rw [← List.drop_drop, List.drop_left]; rfl
  rw [e2]

theorem splitKey_plain {s : List UInt8} (h : 47 ∉ s) (hn : s ≠ []) : splitKey s = (none, some s) := by
  unfold splitKey
  rw [if_neg hn, if_pos h]

/-- Every name is a key, or a section with a key. -/
theorem split_cases (n : List UInt8) : 47 ∉ n ∨ ∃ s r, n = s ++ 47 :: r ∧ 47 ∉ s := by
  induction n with
  | nil => exact .inl (by simp)
  | cons c n ih =>
    by_cases hc : c = 47
    · exact .inr ⟨[], n, by rw [hc]; rfl, by simp⟩
    · rcases ih with h | ⟨s, r, e, hs⟩
      · exact .inl (by simp [h, Ne.symm hc])
      · exact .inr ⟨c :: s, r, by rw [e]; rfl, by simp [hs, Ne.symm hc]⟩

theorem nameOf_append (ign : Bool) (a b : List UInt8) : nameOf ign (a ++ b) = nameOf ign a ++ nameOf ign b := by
  cases ign <;> simp [nameOf]

theorem nameOf_slash (ign : Bool) (a b : List UInt8) : nameOf ign (a ++ 47 :: b) = nameOf ign a ++ 47 :: nameOf ign b := by
  rw [nameOf_append]
  cases ign
  · rfl
  · simp [nameOf, Blank]

theorem nameOf_mem {ign : Bool} {k : List UInt8} {c : UInt8} (h : c ∈ nameOf ign k) : c ∈ k := by
  cases ign
  · exact h
  · exact (List.mem_filter.1 h).1

theorem nameOf_mem47 {ign : Bool} {k : List UInt8} : 47 ∈ nameOf ign k ↔ 47 ∈ k := by
  refine ⟨nameOf_mem, fun h => ?_⟩
  cases ign
  · exact h
  · exact List.mem_filter.2 ⟨h, by decide⟩

theorem nameOf_idem (ign : Bool) (k : List UInt8) : nameOf ign (nameOf ign k) = nameOf ign k := by
  cases ign
  · rfl
  · simp [nameOf]

/-- The table of printed names, for these names; `ex` are the sections still to come. -/
structure Printed (ign : Bool) (l : List (List UInt8 × List UInt8)) (ns : List (List UInt8)) (ex : List UInt8 → Prop) : Prop where
  keys : (l.map (·.1)).filter (fun n => decide (n.getLast? ≠ some 47)) = ns
  ne : ∀ p ∈ l, p.1 ≠ []
  key : ∀ p ∈ l, 47 ∉ p.1 → Same (nameOf ign p.2) p.1
  sub : ∀ p ∈ l, ∀ s r, p.1 = s ++ 47 :: r → 47 ∉ s → r ≠ [] → Same (nameOf ign p.2) r ∧ ((look l (s ++ [47])).isSome = true ∨ ex (s ++ [47]))
  sec : ∀ p ∈ l, p.1.getLast? = some 47 → Same (nameOf ign p.2 ++ [47]) p.1 ∧ 47 ∉ p.2

theorem look_mem {α : Type} {m : List (List UInt8 × α)} {k : List UInt8} {v : α} (h : look m k = some v) : ∃ p ∈ m, Same p.1 k ∧ p.2 = v := by
  induction m with
  | nil => simp [look] at h
  | cons p m ih =>
    rw [look_cons] at h
    by_cases hs : Same p.1 k
    · rw [if_pos hs] at h; cases h
      exact ⟨p, by simp, hs, rfl⟩
    · rw [if_neg hs] at h
      obtain ⟨q, hq, e⟩ := ih h
      exact ⟨q, by simp [hq], e⟩

theorem ins_mem {α : Type} {m : List (List UInt8 × α)} {k : List UInt8} {v : α} {p : List UInt8 × α} (h : p ∈ ins m k v) : p ∈ m ∨ (Same p.1 k ∧ p.2 = v ∧ k ≠ []) := by
  unfold ins at h
  split at h
  · exact .inl h
  · rename_i hk
    split at h
    · simp only [upd, List.mem_map] at h
      obtain ⟨q, hq, e⟩ := h
      split at e
      · rename_i hs; subst e; exact .inr ⟨hs, rfl, hk⟩
      · subst e; exact .inl hq
    · simp only [List.mem_append, List.mem_singleton] at h
      rcases h with h | h
      · exact .inl h
      · subst h; exact .inr ⟨Same.refl _, rfl, hk⟩

theorem look_ins_some {α : Type} {m : List (List UInt8 × α)} {k k' : List UInt8} {v : α} (h : (look m k').isSome = true) : (look (ins m k v) k').isSome = true := by
  by_cases hk : k = []
  · rw [ins, if_pos hk]; exact h
  · rw [look_ins _ _ _ _ hk]
    split
    · rfl
    · exact h

theorem filter_addName {ns : List (List UInt8)} {n : List UInt8} (h : n.getLast? ≠ some 47) :
    (addName ns n).filter (fun n => decide (n.getLast? ≠ some 47)) = addName (ns.filter fun n => decide (n.getLast? ≠ some 47)) n := by
  unfold addName
  by_cases hh : ∃ m ∈ ns, Same m n
  · rw [if_pos hh, if_pos]
    obtain ⟨m, hm, hs⟩ := hh
    exact ⟨m, List.mem_filter.2 ⟨hm, by simpa using fun e => h ((same_last hs).1 e)⟩, hs⟩
  · rw [if_neg hh, if_neg (fun ⟨m, hm, hs⟩ => hh ⟨m, (List.mem_filter.1 hm).1, hs⟩), List.filter_append]
    congr 1
    simp [h]

theorem filter_addSec {ns : List (List UInt8)} {n : List UInt8} (h : n.getLast? = some 47) :
    (addName ns n).filter (fun n => decide (n.getLast? ≠ some 47)) = ns.filter fun n => decide (n.getLast? ≠ some 47) := by
  unfold addName
  split
  · rfl
  · rw [List.filter_append]; simp [h]

/-- A name of a section comes in. -/
theorem Printed.addSec {ign : Bool} {l : List (List UInt8 × List UInt8)} {ns : List (List UInt8)} {ex : List UInt8 → Prop} (h : Printed ign l ns ex) {s n : List UInt8} (hs : 47 ∉ s) (hn : n = nameOf ign s ++ [47])
    (hx : ∀ x, ex x → Same n x) : Printed ign (ins l n s) ns (fun _ => False) := by
  have hl : n.getLast? = some 47 := by rw [hn]; simp
  have hne : n ≠ [] := by rw [hn]; simp
  have h47 : 47 ∈ n := by rw [hn]; simp
  refine ⟨by rw [keys_ins _ _ hne, filter_addSec hl, h.keys], ?_, ?_, ?_, ?_⟩
  · intro p hp
    rcases ins_mem hp with hp | ⟨e, _, _⟩
    · exact h.ne p hp
    · intro e'
      have := (same_slash e).2 h47
      rw [e'] at this; cases this
  · intro p hp h1
    rcases ins_mem hp with hp | ⟨e, _, _⟩
    · exact h.key p hp h1
    · exact absurd ((same_slash e).2 h47) h1
  · intro p hp a b e1 e2 e3
    rcases ins_mem hp with hp | ⟨e, _, _⟩
    · obtain ⟨x, y⟩ := h.sub p hp a b e1 e2 e3
      refine ⟨x, .inl ?_⟩
      rcases y with y | y
      · exact look_ins_some y
      · rw [look_ins _ _ _ _ hne, if_pos (hx _ y)]; rfl
    · exfalso
      -- the name has one slash only, at its end
      have e' : (p.1).map toLower = (nameOf ign s).map toLower ++ [47] := by
        rw [show p.1.map toLower = n.map toLower from e, hn]; simp [toLower, isUpper]
      rw [e1, List.map_append, List.map_cons, show toLower 47 = 47 by decide] at e'
      have hb : b.map toLower ≠ [] := by simpa using e3
      obtain ⟨b', z, hz⟩ : ∃ b' z, b.map toLower = b' ++ [z] := ⟨_, _, (List.dropLast_concat_getLast hb).symm⟩
      rw [hz] at e'
      have e4 : a.map toLower ++ 47 :: b' = (nameOf ign s).map toLower := by
        rw [← List.cons_append, ← List.append_assoc] at e'
        have := congrArg List.dropLast e'
        rwa [List.dropLast_concat, List.dropLast_concat] at this
      have : (47 : UInt8) ∈ (nameOf ign s).map toLower := by rw [← e4]; simp
      obtain ⟨c, hc, hc'⟩ := List.mem_map.1 this
      rw [(toLower_slash c).1 hc'] at hc
      exact hs (nameOf_mem hc)
  · intro p hp h1
    rcases ins_mem hp with hp | ⟨e, e2, _⟩
    · exact h.sec p hp h1
    · rw [e2]
      exact ⟨by rw [← hn]; exact e.symm, hs⟩

/-- A name of a key comes in. -/
theorem Printed.addKey {ign : Bool} {l : List (List UInt8 × List UInt8)} {ns : List (List UInt8)} (h : Printed ign l ns (fun _ => False)) {ex : List UInt8 → Prop} {n v : List UInt8} (hv : Valid n)
    (hx : ∀ a b, Same a b → ex a → ex b)
    (h1 : 47 ∉ n → Same (nameOf ign v) n) (h2 : ∀ s r, n = s ++ 47 :: r → 47 ∉ s → Same (nameOf ign v) r ∧ ((look l (s ++ [47])).isSome = true ∨ ex (s ++ [47]))) : Printed ign (ins l n v) (addName ns n) ex := by
  have split {p : List UInt8} (e : Same p n) {a b : List UInt8} (e1 : p = a ++ 47 :: b) (e2 : 47 ∉ a) : ∃ a' b', n = a' ++ 47 :: b' ∧ 47 ∉ a' ∧ Same a' a ∧ Same b' b := by
    have hn : 47 ∈ n := (same_slash e).1 (by rw [e1]; simp)
    rcases split_cases n with h | ⟨a', b', e3, e4⟩
    · exact absurd hn h
    · refine ⟨a', b', e3, e4, ?_⟩
      have e := (show p.map toLower = n.map toLower from e)
      rw [e1, e3, List.map_append, List.map_cons, List.map_append, List.map_cons, show toLower 47 = 47 by decide] at e
      have m1 : (47 : UInt8) ∉ a.map toLower := fun hh => by
        obtain ⟨c, hc, hc'⟩ := List.mem_map.1 hh
        rw [(toLower_slash c).1 hc'] at hc; exact e2 hc
      have m2 : (47 : UInt8) ∉ a'.map toLower := fun hh => by
        obtain ⟨c, hc, hc'⟩ := List.mem_map.1 hh
        rw [(toLower_slash c).1 hc'] at hc; exact e4 hc
      have s1 := splitKey_slash (r := b.map toLower) m1
      have s2 := splitKey_slash (r := b'.map toLower) m2
      rw [e, s2] at s1
      have s3 : a'.map toLower = a.map toLower := by simpa using congrArg Prod.fst s1
      refine ⟨s3, ?_⟩
      rw [s3] at e
      have := List.append_cancel_left e
      simp only [List.cons.injEq, true_and] at this
      exact this.symm
  refine ⟨by rw [keys_ins _ _ hv.1, filter_addName hv.2, h.keys], ?_, ?_, ?_, ?_⟩
  · intro p hp
    rcases ins_mem hp with hp | ⟨e, _, _⟩
    · exact h.ne p hp
    · exact ((same_valid e).2 hv).1
  · intro p hp h3
    rcases ins_mem hp with hp | ⟨e, e2, _⟩
    · exact h.key p hp h3
    · rw [e2]; exact (h1 (fun hh => h3 ((same_slash e).2 hh))).trans e.symm
  · intro p hp a b e1 e2 e3
    rcases ins_mem hp with hp | ⟨e, e4, _⟩
    · obtain ⟨x, y⟩ := h.sub p hp a b e1 e2 e3
      exact ⟨x, .inl (look_ins_some (y.elim id False.elim))⟩
    · obtain ⟨a', b', e5, e6, s1, s2⟩ := split e e1 e2
      obtain ⟨x, y⟩ := h2 a' b' e5 e6
      rw [e4]
      have s3 : Same (a' ++ [47]) (a ++ [47]) := by
        show List.map toLower _ = List.map toLower _
        rw [List.map_append, List.map_append, show a'.map toLower = a.map toLower from s1]
      refine ⟨x.trans s2, y.elim (fun y => .inl (look_ins_some ?_)) (fun y => .inr (hx _ _ s3 y))⟩
      rw [← look_congr s3]; exact y
  · intro p hp h3
    rcases ins_mem hp with hp | ⟨e, e2, _⟩
    · exact h.sec p hp h3
    · exact absurd ((same_last e).1 h3) hv.2

/-- A name goes. -/
theorem Printed.del {ign : Bool} {l : List (List UInt8 × List UInt8)} {ns : List (List UInt8)} (h : Printed ign l ns (fun _ => False)) {n : List UInt8} (hv : n.getLast? ≠ some 47) :
    Printed ign (del l n) (ns.filter fun m => decide (¬ Same m n)) (fun _ => False) := by
  have mem {p : List UInt8 × List UInt8} (hp : p ∈ Ini.del l n) : p ∈ l := (List.mem_filter.1 hp).1
  refine ⟨?_, fun p hp => h.ne p (mem hp), fun p hp => h.key p (mem hp), ?_, fun p hp => h.sec p (mem hp)⟩
  · rw [keys_del, List.filter_filter, ← h.keys, List.filter_filter]
    apply List.filter_congr
    intro x _
    rw [Bool.and_comm]
  · intro p hp s r e1 e2 e3
    obtain ⟨x, y⟩ := h.sub p (mem hp) s r e1 e2 e3
    refine ⟨x, .inl ?_⟩
    rw [look_del, if_neg]
    · exact y.elim id False.elim
    · intro e
      exact hv ((same_last e).2 (by simp))

/-- What the keys are printed as. -/
theorem Printed.print {ign : Bool} {l : List (List UInt8 × List UInt8)} {ns : List (List UInt8)} (h : Printed ign l ns (fun _ => False)) (ini : Ini) (hl : ini.lookup = l) :
    (kvKeys ini).map (fun k => (nameOf ign k).map toLower) = ns.map (·.map toLower) := by
  unfold kvKeys
  rw [hl, ← h.keys, List.filter_map, List.map_map, List.map_map]
  have e : (fun (n : List UInt8) => decide (n.getLast? ≠ some 47)) ∘ (fun (x : List UInt8 × List UInt8) => x.1) = fun p => decide (p.1.getLast? ≠ some 47) := rfl
  rw [e]
  apply List.map_congr_left
  intro p hp
  rw [List.mem_filter] at hp
  obtain ⟨hp, hlast⟩ := hp
  simp only [decide_eq_true_eq] at hlast
  simp only [Function.comp_apply]
  rcases split_cases p.1 with h47 | ⟨s, r, e1, e2⟩
  · rw [splitKey_plain h47 (h.ne p hp)]
    exact h.key p hp h47
  · have hr : r ≠ [] := by
      rintro rfl; rw [e1] at hlast; simp at hlast
    obtain ⟨x, y⟩ := h.sub p hp s r e1 e2 hr
    rw [e1, splitKey_slash e2]
    obtain ⟨v, hv⟩ := Option.isSome_iff_exists.1 (y.elim id False.elim)
    obtain ⟨q, hq, s1, s2⟩ := look_mem hv
    have s3 := (h.sec q hq ((same_last s1).2 (by simp))).1
    rw [s2] at s3
    have s3 : Same (nameOf ign v ++ [47]) (s ++ [47]) := s3.trans s1
    have : Same (nameOf ign v) s := by
      have s3 : (nameOf ign v ++ [47]).map toLower = (s ++ [47]).map toLower := s3
      have := congrArg List.dropLast s3
      simpa [Same] using this
    have e3 : fullKey (some s) [] = s ++ [47] := by simp [fullKey]
    simp only [Option.bind_some, e3, hv]
    have e4 : fullKey (some v) p.2 = v ++ 47 :: p.2 := by simp [fullKey]
    rw [e4, nameOf_slash, List.map_append, List.map_append, List.map_cons, List.map_cons,
      show (nameOf ign v).map toLower = s.map toLower from this, show (nameOf ign p.2).map toLower = r.map toLower from x]

end Verif.Ini
