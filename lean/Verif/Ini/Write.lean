import Verif.Ini.Tree
/- The tree of elements after it was brought up to date. -/
namespace Verif.Ini
open Verif.Chr (toLower)

/-- Keys without comments only. -/
def KvOnly (es : List Elem) : Prop := ∀ e ∈ es, ∃ k v, e = .kv k v none

/-- A tree that was made by writing only. -/
structure Made (ini : Ini) (ns : List (List UInt8)) (pre : List Elem) (hs : List (List UInt8 × Option (List UInt8))) : Prop where
  tree : Tree ini pre hs
  root : KvOnly pre
  secs : ∀ p ∈ ini.sections, KvOnly p.2
  bald : ∀ p ∈ hs, p.2 = none
  live : ∀ p ∈ hs, ∃ n ∈ ns, ∃ s r, n = s ++ 47 :: r ∧ 47 ∉ s ∧ Same s p.1

/-- What writing does to the table of names: sections come in. -/
def Looks (ns : List (List UInt8)) (ign : Bool) (l l' : List (List UInt8 × List UInt8)) : Prop :=
  ∀ P : List (List UInt8 × List UInt8) → Prop, (∀ l, ∀ n ∈ ns, ∀ s r, n = s ++ 47 :: r → 47 ∉ s → P l → P (ins l (intKey ign (s ++ [47])) s)) → P l → P l'

theorem Looks.refl (ns : List (List UInt8)) (ign : Bool) (l : List (List UInt8 × List UInt8)) : Looks ns ign l l := fun _ _ h => h

theorem Looks.trans {ns : List (List UInt8)} {ign : Bool} {a b c : List (List UInt8 × List UInt8)} (h : Looks ns ign a b) (g : Looks ns ign b c) : Looks ns ign a c :=
  fun P hP ha => g P hP (h P hP ha)

/-- The values of a list of entries. -/
def entries (l : List (List UInt8 × Option (List UInt8))) (k : List UInt8) : List (Option (List UInt8)) := l.flatMap fun p => if Same p.1 k then [p.2] else []

theorem addAll_spec (l : List (List UInt8 × Option (List UInt8))) {ini : Ini} {ns : List (List UInt8)} {pre : List Elem} {hs : List (List UInt8 × Option (List UInt8))} (m : Made ini ns pre hs) {idx : Option Nat}
    (hi : idx = none ∨ idx = some pre.length) (hl : ∀ p ∈ l, p.1 ∈ ns) (hn : ∀ n ∈ ns, Stored ini.ign n) :
    ∃ pre' hs', Made (addAll l ini idx) ns pre' hs' ∧ (addAll l ini idx).ign = ini.ign ∧ (addAll l ini idx).kvs = ini.kvs ∧
      (∀ k, treeVals (addAll l ini idx) k = treeVals ini k ++ entries l k) ∧ Looks ns ini.ign ini.lookup (addAll l ini idx).lookup := by
  induction l generalizing ini pre hs idx with
  | nil => exact ⟨pre, hs, m, rfl, rfl, fun k => by simp [addAll, entries], Looks.refl _ _ _⟩
  | cons p l ih =>
    obtain ⟨n, v⟩ := p
    have hmem : n ∈ ns := hl (n, v) (by simp)
    obtain ⟨pre1, hs1, t1, i1, g1, k1, v1, a1, b1, c1, l1⟩ := addOne_spec m.tree hi (hn n hmem) v
    have m1 : Made (addOne ini idx n v).1 ns pre1 hs1 := by
      refine ⟨t1, ?_, ?_, ?_, ?_⟩
      · intro e he
        rcases a1 e he with h | ⟨h, _⟩
        · exact m.root e h
        · exact ⟨n, v, h⟩
      · intro p hp e he
        rcases b1 p hp e he with ⟨q, hq, _, h⟩ | ⟨s, r, _, _, _, h⟩
        · exact m.secs q hq e h
        · exact ⟨r, v, h⟩
      · intro p hp
        rcases c1 p hp with h | ⟨s, r, _, _, h⟩
        · exact m.bald p h
        · rw [h]
      · intro p hp
        rcases c1 p hp with h | ⟨s, r, e, h47, h⟩
        · exact m.live p h
        · exact ⟨n, hmem, s, r, e, h47, by rw [h]; exact Same.refl _⟩
    obtain ⟨pre2, hs2, m2, g2, k2, v2, l2⟩ := ih m1 i1 (fun p hp => hl p (by simp [hp])) (by rw [g1]; exact hn)
    refine ⟨pre2, hs2, m2, g2.trans g1, k2.trans k1, fun k => ?_, ?_⟩
    · show treeVals (addAll l (addOne ini idx n v).1 (addOne ini idx n v).2) k = _
      rw [v2, v1]
      simp [entries, List.append_assoc]
    · rw [g1] at l2
      refine Looks.trans ?_ l2
      rcases l1 with h | ⟨s, r, e, h47, h⟩
      · rw [h]; exact Looks.refl _ _ _
      · rw [h]
        exact fun P hP hl => hP _ n hmem s r e h47 hl

theorem entries_enum {d : Kvs} {ns : List (List UInt8)} {f : List UInt8 → List (Option (List UInt8))} (h : Todo d ns f) (k : List UInt8) : entries d.enum k = f k := by
  rw [h.holds.enum]
  have hc : ∀ n ∈ ns, copied (f n) = f n := fun n hn => if_neg (h.some n hn)
  have aux : ∀ l : List (List UInt8), Apart l → (∀ n ∈ l, copied (f n) = f n) →
      entries (l.flatMap fun k => (copied (f k)).map fun v => (k, v)) k = if ∃ n ∈ l, Same n k then f k else [] := by
    intro l
    induction l with
    | nil => intro _ _; simp [entries]
    | cons n l ih =>
      intro ha hc
      obtain ⟨h1, h2⟩ := List.pairwise_cons.1 ha
      have e1 : entries ((n :: l).flatMap fun k => (copied (f k)).map fun v => (k, v)) k = entries ((f n).map fun v => (n, v)) k ++ entries (l.flatMap fun k => (copied (f k)).map fun v => (k, v)) k := by
        unfold entries
        rw [List.flatMap_cons, List.flatMap_append, hc n (by simp)]
      have e2 : entries ((f n).map fun v => (n, v)) k = if Same n k then f n else [] := by
        unfold entries
        rw [List.flatMap_map]
        by_cases hs : Same n k
        · simp [hs]
        · simp [hs]
      rw [e1, e2, ih h2 fun m hm => hc m (by simp [hm])]
      by_cases hs : Same n k
      · rw [if_pos hs, if_neg, if_pos ⟨n, by simp, hs⟩, List.append_nil, h.holds.ok n k hs]
        rintro ⟨m, hm, hx⟩
        exact h1 m hm (hs.trans hx.symm)
      · rw [if_neg hs, List.nil_append]
        by_cases hx : ∃ m ∈ l, Same m k
        · obtain ⟨m, hm, hx'⟩ := hx
          rw [if_pos ⟨m, hm, hx'⟩, if_pos ⟨m, by simp [hm], hx'⟩]
        · rw [if_neg hx, if_neg]
          rintro ⟨m, hm, hx'⟩
          rcases List.mem_cons.1 hm with rfl | hm
          · exact hs hx'
          · exact hx ⟨m, hm, hx'⟩
  rw [aux ns h.holds.apart hc]
  by_cases hx : ∃ n ∈ ns, Same n k
  · rw [if_pos hx]
  · rw [if_neg hx, h.holds.none k hx]

theorem updateList_heads (st : Settings) (orig : Kvs) (sec : Option (List UInt8)) (pre : List Elem) (hs : List (List UInt8 × Option (List UInt8))) (kvs : Kvs) :
    updateList st orig sec (pre ++ hs.map header) kvs = ((updateList st orig sec pre kvs).1 ++ hs.map header, (updateList st orig sec pre kvs).2) := by
  induction pre generalizing kvs with
  | nil =>
    induction hs with
    | nil => rfl
    | cons h hs ih =>
      simp only [List.nil_append] at ih
      simp only [List.nil_append, List.map_cons, header, updateList] at ih ⊢
      rw [ih]
  | cons e pre ih =>
    cases e with
    | kv k v c =>
      simp only [List.cons_append, updateList, ih]
      cases (updateOne st orig kvs (fullKey sec k) k v c).1 <;> rfl
    | _ => simp only [List.cons_append, updateList, ih]

theorem occ_mem {sec : Option (List UInt8)} {es : List Elem} {key : List UInt8} {v c : Option (List UInt8)} (h : .kv key v c ∈ es) : v ∈ occ sec es (path sec key) := by
  unfold occ
  exact List.mem_flatMap.2 ⟨_, h, by simp [Same.refl]⟩

theorem prune_id {ini : Ini} {ns : List (List UInt8)} {pre : List Elem} {hs : List (List UInt8 × Option (List UInt8))} {g : List UInt8 → List (Option (List UInt8))} (m : Made ini ns pre hs)
    (h : Holds ini.kvs ns g) (hg : ∀ n ∈ ns, g n ≠ []) (hv : ∀ k, treeVals ini k = g k) : prune ini = ini := by
  have hhas : ∀ k, g k ≠ [] → ini.kvs.has k = true := by
    intro k hk
    have hx : ∃ n ∈ ns, Same n k := Classical.byContradiction fun hx => hk (h.none k hx)
    unfold Kvs.has
    rw [h.look, if_pos hx]; rfl
  have hroot : pruneList ini.kvs none ini.elements = ini.elements := by
    unfold pruneList
    apply List.filter_eq_self.2
    intro e he
    cases e with
    | kv k v c =>
      have h1 : v ∈ treeVals ini k := List.mem_append_left _ (occ_mem (sec := none) he)
      rw [hv] at h1
      show ini.kvs.has (fullKey none k) = true
      rw [fullKey_path]
      exact hhas k (List.ne_nil_of_mem h1)
    | _ => rfl
  have hsec : ∀ p ∈ ini.sections, pruneList ini.kvs (some p.1) p.2 = p.2 := by
    intro p hp
    unfold pruneList
    apply List.filter_eq_self.2
    intro e he
    cases e with
    | kv k v c =>
      have h1 : v ∈ treeVals ini (path (some p.1) k) := List.mem_append_right _ (List.mem_flatMap.2 ⟨p, hp, occ_mem (sec := some p.1) he⟩)
      rw [hv] at h1
      simp only [fullKey_path]
      exact hhas _ (List.ne_nil_of_mem h1)
    | _ => rfl
  have hap : Apart (ini.sections.map (·.1)) := m.tree.heads ▸ m.tree.apart
  have hnm : ∀ p ∈ ini.sections, 47 ∉ p.1 ∧ ∃ n ∈ ns, ∃ s r, n = s ++ 47 :: r ∧ 47 ∉ s ∧ Same s p.1 := by
    intro p hp
    have : p.1 ∈ hs.map (·.1) := by rw [m.tree.heads]; exact List.mem_map_of_mem (f := fun x : List UInt8 × List Elem => x.1) hp
    obtain ⟨q, hq, e⟩ := List.mem_map.1 this
    exact e ▸ ⟨(m.tree.name q hq).2.1, m.live q hq⟩
  have hkv : ∀ p ∈ ini.sections, hasKv p.2 = true := by
    intro p hp
    obtain ⟨hp47, n, hn, s, r, e, h47, hs⟩ := hnm p hp
    have h1 : treeVals ini n ≠ [] := by rw [hv]; exact hg n hn
    unfold treeVals at h1
    rw [m.tree.split, occ_app, occ_headers, List.append_nil, occ_root m.tree (by rw [e]; simp), List.nil_append] at h1
    obtain ⟨v, hv1⟩ := List.exists_mem_of_ne_nil _ h1
    obtain ⟨q, hq, hv2⟩ := List.mem_flatMap.1 hv1
    obtain ⟨x, hx, hv3⟩ := List.mem_flatMap.1 hv2
    cases x with
    | kv key w c =>
      by_cases hk : Same (path (some q.1) key) n
      · rw [e] at hk
        have h2 := (same_split (hnm q hq).1 h47 hk).1
        have h3 : some q.2 = some p.2 := by
          rw [← look_of_mem hap hq (h2.trans hs), ← look_of_mem hap hp (Same.refl p.1)]
        rw [← Option.some.inj h3]
        exact List.any_eq_true.2 ⟨_, hx, rfl⟩
      · simp [hk] at hv3
    | _ => simp at hv3
  have e1 : (ini.sections.map fun p => (p.1, pruneList ini.kvs (some p.1) p.2)) = ini.sections := by
    conv => rhs; rw [← List.map_id ini.sections]
    exact List.map_congr_left fun p hp => by rw [hsec p hp]; rfl
  unfold prune
  rw [hroot, e1, List.filter_eq_self.2 hkv]

/-- The tree after it was brought up to date gives every key its values. -/
theorem updateTree_spec {st : Settings} {ini : Ini} {ns : List (List UInt8)} {pre : List Elem} {hs : List (List UInt8 × Option (List UInt8))} {g : List UInt8 → List (Option (List UInt8))} (m : Made ini ns pre hs)
    (h : Holds ini.kvs ns g) (hg : ∀ n ∈ ns, g n ≠ []) (hk : Keeps st g) (hn : ∀ n ∈ ns, Stored ini.ign n) :
    ∃ pre' hs', Made (updateTree st ini) ns pre' hs' ∧ (updateTree st ini).ign = ini.ign ∧ (updateTree st ini).kvs = ini.kvs ∧ (∀ k, treeVals (updateTree st ini) k = g k) ∧
      Looks ns ini.ign ini.lookup (updateTree st ini).lookup := by
  have hd : Todo ini.kvs.duplicate ns g := by
    refine ⟨h.duplicate.congr fun k => ?_, hg⟩
    by_cases hx : ∃ n ∈ ns, Same n k
    · obtain ⟨n, h1, h2⟩ := hx
      rw [if_pos ⟨n, h1, h2⟩]
      exact if_neg (by rw [← h.ok n k h2]; exact hg n h1)
    · rw [if_neg hx, h.none k hx]
  obtain ⟨ns1, f1, a1, a2, a3, a4, a5, _⟩ := updateList_spec h hk none pre ini.kvs.duplicate hd (fun k => .inr rfl)
  obtain ⟨ns2, f2, b1, b2, b3, b4, b5, b6⟩ := updateSecs_spec h hk ini.sections (updateList st ini.kvs none pre ini.kvs.duplicate).2 a1 a3
  have eu : updateVals st ini ini.kvs.duplicate = ({ ini with elements := (updateList st ini.kvs none pre ini.kvs.duplicate).1 ++ hs.map header, sections := (updateSecs st ini.kvs ini.sections (updateList st ini.kvs none pre ini.kvs.duplicate).2).1 }, (updateSecs st ini.kvs ini.sections (updateList st ini.kvs none pre ini.kvs.duplicate).2).2) := by
    unfold updateVals
    rw [m.tree.split, updateList_heads]
  have kvp : KvOnly (updateList st ini.kvs none pre ini.kvs.duplicate).1 := by
    intro e he
    rcases a5 e he with ⟨key, v, v', c, e1, e2, _⟩ | ⟨e1, e2⟩
    · obtain ⟨k0, v0, e0⟩ := m.root _ e2
      cases e0
      exact ⟨key, v', e1⟩
    · obtain ⟨k0, v0, e0⟩ := m.root e e1
      exact absurd e0 (e2 _ _ _)
  have kvs : ∀ p ∈ (updateSecs st ini.kvs ini.sections (updateList st ini.kvs none pre ini.kvs.duplicate).2).1, KvOnly p.2 := by
    intro p hp e he
    obtain ⟨q, h1, _, h3⟩ := b6 p hp
    rcases h3 e he with ⟨key, v, v', c, e1, e2, _⟩ | ⟨e1, e2⟩
    · obtain ⟨k0, v0, e0⟩ := m.secs q h1 _ e2
      cases e0
      exact ⟨key, v', e1⟩
    · obtain ⟨k0, v0, e0⟩ := m.secs q h1 e e1
      exact absurd e0 (e2 _ _ _)
  have noSec : ∀ es, KvOnly es → NoSec es := by
    intro es hes e he n c hx
    obtain ⟨k, v, e0⟩ := hes e he
    rw [e0] at hx; cases hx
  have m1 : Made (updateVals st ini ini.kvs.duplicate).1 ns (updateList st ini.kvs none pre ini.kvs.duplicate).1 hs := by
    rw [eu]
    refine ⟨⟨rfl, noSec _ kvp, m.tree.heads.trans b5.symm, m.tree.apart, m.tree.name, ?_, fun p hp => noSec _ (kvs p hp)⟩, kvp, kvs, m.bald, m.live⟩
    intro key v c hm
    rcases a5 _ hm with ⟨key', v1, v', c', e1, e2, _⟩ | ⟨e1, e2⟩
    · cases e1; exact m.tree.root _ _ _ e2
    · exact absurd rfl (e2 _ _ _)
  have hu2 : (updateVals st ini ini.kvs.duplicate).2 = (updateSecs st ini.kvs ini.sections (updateList st ini.kvs none pre ini.kvs.duplicate).2).2 := by rw [eu]
  have b1' : Todo (updateVals st ini ini.kvs.duplicate).2 ns2 f2 := hu2 ▸ b1
  have henum : ∀ p ∈ (updateVals st ini ini.kvs.duplicate).2.enum, p.1 ∈ ns := by
    intro p hp
    rw [b1'.holds.enum] at hp
    obtain ⟨n, hn1, hp⟩ := List.mem_flatMap.1 hp
    obtain ⟨v, _, rfl⟩ := List.mem_map.1 hp
    exact a2 _ (b2 _ hn1)
  have g1 : (updateVals st ini ini.kvs.duplicate).1.ign = ini.ign := rfl
  obtain ⟨pre', hs', m2, g2, k2, v2, l2⟩ := addAll_spec (updateVals st ini ini.kvs.duplicate).2.enum m1 (idx := none) (.inl rfl) henum (by rw [g1]; exact hn)
  have hv : ∀ k, treeVals (addAll (updateVals st ini ini.kvs.duplicate).2.enum (updateVals st ini ini.kvs.duplicate).1 none) k = g k := by
    intro k
    rw [v2, entries_enum b1']
    unfold treeVals
    rw [eu]
    simp only
    rw [occ_app, occ_headers, List.append_nil, List.append_assoc, b4, a4]
  have hp := prune_id m2 (by rw [k2]; exact h) hg hv
  have e : updateTree st ini = addAll (updateVals st ini ini.kvs.duplicate).2.enum (updateVals st ini ini.kvs.duplicate).1 none := hp
  rw [e]
  exact ⟨pre', hs', m2, g2, k2, hv, l2⟩

end Verif.Ini
