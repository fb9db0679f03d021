import Verif.Ini.Update
/- Adding what is not in the tree, and taking out what is no longer there. -/
namespace Verif.Ini
open Verif.Chr (toLower)

/-- The elements of a list that are no sections. -/
def NoSec (es : List Elem) : Prop := ∀ e ∈ es, ∀ n c, e ≠ .section n c

/-- A section in the list of elements. -/
def header (p : List UInt8 × Option (List UInt8)) : Elem := .section p.1 p.2

/-- The tree of elements: the keys of the file itself, then the sections. -/
structure Tree (ini : Ini) (pre : List Elem) (hs : List (List UInt8 × Option (List UInt8))) : Prop where
  split : ini.elements = pre ++ hs.map header
  plain : NoSec pre
  heads : hs.map (·.1) = ini.sections.map (·.1)
  apart : Apart (hs.map (·.1))
  name : ∀ p ∈ hs, p.1 ≠ [] ∧ 47 ∉ p.1 ∧ intKey ini.ign p.1 = p.1
  root : ∀ key v c, Elem.kv key v c ∈ pre → 47 ∉ key
  inner : ∀ p ∈ ini.sections, NoSec p.2

/-- The values that the tree gives a key. -/
def treeVals (ini : Ini) (k : List UInt8) : List (Option (List UInt8)) := occ none ini.elements k ++ occs ini.sections k

theorem occ_headers (hs : List (List UInt8 × Option (List UInt8))) (k : List UInt8) : occ none (hs.map header) k = [] := by
  induction hs with
  | nil => rfl
  | cons p hs ih => rw [List.map_cons, occ_cons, ih]; rfl

theorem occ_root {ini : Ini} {pre : List Elem} {hs : List (List UInt8 × Option (List UInt8))} (t : Tree ini pre hs) {k : List UInt8} (hk : 47 ∈ k) : occ none pre k = [] := by
  have h := t.root
  clear t
  induction pre with
  | nil => rfl
  | cons e pre ih =>
    rw [occ_cons, ih fun key v c hm => h key v c (by simp [hm]), List.append_nil]
    cases e with
    | kv key v c =>
      rw [occ_kv, if_neg]
      intro hs
      exact h key v c (by simp) ((same_slash (a := key) hs).2 hk)
    | _ => rfl

theorem same_split {s s' r r' : List UInt8} (hs : 47 ∉ s) (hs' : 47 ∉ s') (h : Same (s ++ 47 :: r) (s' ++ 47 :: r')) : Same s s' ∧ Same r r' := by
  induction s generalizing s' with
  | nil =>
    cases s' with
    | nil =>
      refine ⟨rfl, ?_⟩
      unfold Same at h ⊢
      simpa using h
    | cons c s' =>
      unfold Same at h
      simp only [List.nil_append, List.map_cons, List.cons_append, List.cons.injEq] at h
      have := (toLower_slash c).1 (h.1.symm.trans ((toLower_slash 47).2 rfl))
      exact absurd this (fun e => hs' (by simp [e]))
  | cons c s ih =>
    cases s' with
    | nil =>
      unfold Same at h
      simp only [List.nil_append, List.map_cons, List.cons_append, List.cons.injEq] at h
      have := (toLower_slash c).1 (h.1.trans ((toLower_slash 47).2 rfl))
      exact absurd this (fun e => hs (by simp [e]))
    | cons c' s' =>
      unfold Same at h
      simp only [List.map_cons, List.cons_append, List.cons.injEq] at h
      obtain ⟨h1, h2⟩ := ih (s' := s') (fun hm => hs (by simp [hm])) (fun hm => hs' (by simp [hm])) h.2
      unfold Same at h1 ⊢
      exact ⟨by simp [h.1, h1], h2⟩

theorem occ_sec_none {s : List UInt8} (hs : 47 ∉ s) {k : List UInt8} (hk : ∀ s' r', k = s' ++ 47 :: r' → 47 ∉ s' → ¬ Same s s') (es : List Elem) : occ (some s) es k = [] := by
  induction es with
  | nil => rfl
  | cons e es ih =>
    rw [occ_cons, ih, List.append_nil]
    cases e with
    | kv key v c =>
      rw [occ_kv, if_neg]
      intro h
      have h47 : 47 ∈ k := (same_slash h).1 (by simp [path])
      rcases split_cases k with h' | ⟨s', r', e, h'⟩
      · exact h' h47
      · rw [e] at h
        exact hk s' r' e h' (same_split hs h' h).1
    | _ => rfl

theorem occs_none {ss : List (List UInt8 × List Elem)} {k : List UInt8} (h : ∀ p ∈ ss, 47 ∉ p.1 ∧ ∀ s' r', k = s' ++ 47 :: r' → 47 ∉ s' → ¬ Same p.1 s') : occs ss k = [] := by
  induction ss with
  | nil => rfl
  | cons p ss ih =>
    unfold occs at ih ⊢
    rw [List.flatMap_cons, ih fun p hp => h p (by simp [hp]), occ_sec_none (h p (by simp)).1 (h p (by simp)).2]
    rfl

theorem look_of_mem {m : List (List UInt8 × α)} (ha : Apart (m.map (·.1))) {q : List UInt8 × α} (hq : q ∈ m) {s : List UInt8} (h : Same q.1 s) : look m s = some q.2 := by
  induction m with
  | nil => cases hq
  | cons x m ih =>
    obtain ⟨h1, h2⟩ := List.pairwise_cons.1 ha
    rw [look_cons]
    rcases List.mem_cons.1 hq with rfl | hq
    · rw [if_pos h]
    · have hne : ¬ Same x.1 s := fun e => h1 q.1 (List.mem_map_of_mem (f := fun y : List UInt8 × α => y.1) hq) (e.trans h.symm)
      rw [if_neg hne]
      exact ih h2 hq

/-- A value behind those of a section. -/
theorem occs_upd {ss : List (List UInt8 × List Elem)} {s : List UInt8} (ha : Apart (ss.map (·.1))) (hn : ∀ p ∈ ss, 47 ∉ p.1) (h47 : 47 ∉ s) (hl : (look ss s).isSome = true) (key : List UInt8)
    (v c : Option (List UInt8)) (k : List UInt8) :
    occs (upd ss s ((look ss s).getD [] ++ [.kv key v c])) k = occs ss k ++ (if Same (path (some s) key) k then [v] else []) := by
  induction ss with
  | nil => simp [look] at hl
  | cons p ss ih =>
    obtain ⟨hp, ha'⟩ := List.pairwise_cons.1 ha
    by_cases hs : Same p.1 s
    · have hrest : upd ss s ((look (p :: ss) s).getD [] ++ [.kv key v c]) = ss := by
        unfold upd
        conv => rhs; rw [← List.map_id ss]
        apply List.map_congr_left
        intro q hq
        rw [if_neg]; rfl
        intro e
        exact hp q.1 (List.mem_map_of_mem (f := fun x : List UInt8 × List Elem => x.1) hq) (hs.trans (Same.symm e))
      have e1 : upd (p :: ss) s ((look (p :: ss) s).getD [] ++ [.kv key v c]) = (p.1, (look (p :: ss) s).getD [] ++ [.kv key v c]) :: ss := by
        have : upd (p :: ss) s ((look (p :: ss) s).getD [] ++ [.kv key v c]) = (if fold p.1 = fold s then (p.1, (look (p :: ss) s).getD [] ++ [.kv key v c]) else p) ::
          upd ss s ((look (p :: ss) s).getD [] ++ [.kv key v c]) := rfl
        rw [this, hrest, if_pos (show fold p.1 = fold s from hs)]
      rw [e1, look_cons, if_pos hs, Option.getD_some]
      unfold occs
      rw [List.flatMap_cons, List.flatMap_cons, occ_app, occ_kv]
      have hsame : Same (path (some p.1) key) (path (some s) key) := by
        unfold Same at hs ⊢; simp [path, hs]
      by_cases hk : Same (path (some s) key) k
      · rw [if_pos hk, if_pos (hsame.trans hk)]
        have := occs_none (ss := ss) (k := k) (fun q hq => ⟨hn q (by simp [hq]), fun s' r' e h' hx => by
          rw [e] at hk
          exact hp q.1 (List.mem_map_of_mem (f := fun x : List UInt8 × List Elem => x.1) hq) (hs.trans ((same_split h47 h' hk).1.trans hx.symm))⟩)
        unfold occs at this
        rw [this]; simp
      · rw [if_neg hk, if_neg fun e => hk (hsame.symm.trans e)]; simp
    · rw [look_cons, if_neg hs] at hl
      have e1 : upd (p :: ss) s ((look (p :: ss) s).getD [] ++ [.kv key v c]) = p :: upd ss s ((look ss s).getD [] ++ [.kv key v c]) := by
        have : upd (p :: ss) s ((look (p :: ss) s).getD [] ++ [.kv key v c]) = (if fold p.1 = fold s then (p.1, (look (p :: ss) s).getD [] ++ [.kv key v c]) else p) ::
          upd ss s ((look (p :: ss) s).getD [] ++ [.kv key v c]) := rfl
        rw [this, if_neg (show ¬ fold p.1 = fold s from hs), look_cons, if_neg hs]
      rw [e1]
      have := ih ha' (fun q hq => hn q (by simp [hq])) hl
      unfold occs at this ⊢
      rw [List.flatMap_cons, List.flatMap_cons, this, List.append_assoc]

theorem firstSec_pre {pre : List Elem} (h : NoSec pre) (hs : List (List UInt8 × Option (List UInt8))) : firstSec (pre ++ hs.map header) = pre.length := by
  induction pre with
  | nil => cases hs <;> rfl
  | cons e pre ih =>
    have := ih fun e he => h e (by simp [he])
    cases e with
    | «section» n c => exact absurd rfl (h _ (by simp) n c)
    | _ => simp [firstSec, this]

/-- A name as the store has it. -/
structure Stored (ign : Bool) (n : List UInt8) : Prop where
  valid : Valid n
  head : n.head? ≠ some 47
  sec : ∀ s r, n = s ++ 47 :: r → 47 ∉ s → intKey ign s = s

theorem addOne_spec {ini : Ini} {pre : List Elem} {hs : List (List UInt8 × Option (List UInt8))} (t : Tree ini pre hs) {idx : Option Nat} (hi : idx = none ∨ idx = some pre.length)
    {n : List UInt8} (hn : Stored ini.ign n) (v : Option (List UInt8)) :
    ∃ pre' hs', Tree (addOne ini idx n v).1 pre' hs' ∧ ((addOne ini idx n v).2 = none ∨ (addOne ini idx n v).2 = some pre'.length) ∧
      (addOne ini idx n v).1.ign = ini.ign ∧ (addOne ini idx n v).1.kvs = ini.kvs ∧
      (∀ k, treeVals (addOne ini idx n v).1 k = treeVals ini k ++ (if Same n k then [v] else [])) ∧
      (∀ e ∈ pre', e ∈ pre ∨ (e = .kv n v none ∧ 47 ∉ n)) ∧
      (∀ p ∈ (addOne ini idx n v).1.sections, ∀ e ∈ p.2, (∃ q ∈ ini.sections, q.1 = p.1 ∧ e ∈ q.2) ∨ ∃ s r, n = s ++ 47 :: r ∧ 47 ∉ s ∧ Same p.1 s ∧ e = .kv r v none) ∧
      (∀ p ∈ hs', p ∈ hs ∨ ∃ s r, n = s ++ 47 :: r ∧ 47 ∉ s ∧ p = (s, none)) ∧
      ((addOne ini idx n v).1.lookup = ini.lookup ∨ ∃ s r, n = s ++ 47 :: r ∧ 47 ∉ s ∧ (addOne ini idx n v).1.lookup = ins ini.lookup (intKey ini.ign (s ++ [47])) s) := by
  have hnames : ∀ p ∈ ini.sections, p.1 ≠ [] ∧ 47 ∉ p.1 := by
    intro p hp
    have : p.1 ∈ hs.map (·.1) := by rw [t.heads]; exact List.mem_map_of_mem (f := fun x : List UInt8 × List Elem => x.1) hp
    obtain ⟨q, hq, e⟩ := List.mem_map.1 this
    exact e ▸ ⟨(t.name q hq).1, (t.name q hq).2.1⟩
  rcases split_cases n with h47 | ⟨s, r, e, h47⟩
  · have hs1 := splitKey_plain h47 hn.valid.1
    have hidx : idx.getD (firstSec ini.elements) = pre.length := by
      rcases hi with rfl | rfl
      · rw [t.split]; exact firstSec_pre t.plain hs
      · rfl
    have e1 : addOne ini idx n v = ({ ini with elements := (pre ++ [.kv n v none]) ++ hs.map header }, some (pre.length + 1)) := by
      unfold addOne
      rw [hs1]
      simp only [hidx, Option.getD_some]
      rw [t.split, List.take_left, List.drop_left]
    rw [e1]
    refine ⟨pre ++ [.kv n v none], hs, ⟨rfl, ?_, t.heads, t.apart, t.name, ?_, t.inner⟩, .inr (by simp), rfl, rfl, ?_, ?_, ?_, fun p hp => .inl hp, .inl rfl⟩
    · intro e he n' c hx
      rcases List.mem_append.1 he with he | he
      · exact t.plain e he n' c hx
      · rw [List.mem_singleton.1 he] at hx; cases hx
    · intro key v' c hm
      rcases List.mem_append.1 hm with hm | hm
      · exact t.root key v' c hm
      · cases List.mem_singleton.1 hm; exact h47
    · intro k
      unfold treeVals
      simp only
      rw [occ_app, occ_app, occ_kv, occ_headers, t.split, occ_app, occ_headers]
      by_cases hk : Same n k
      · have : occs ini.sections k = [] := occs_none fun p hp => ⟨(hnames p hp).2, fun s' r' e _ => absurd ((same_slash hk).2 (by rw [e]; simp)) h47⟩
        rw [this]; simp [path, hk]
      · simp [path, hk]
    · intro e he
      rcases List.mem_append.1 he with he | he
      · exact .inl he
      · exact .inr ⟨List.mem_singleton.1 he, h47⟩
    · intro p hp e he
      exact .inl ⟨p, hp, rfl, he⟩
  · have hr : r ≠ [] := by rintro rfl; exact hn.valid.2 (by rw [e]; simp)
    have hsne : s ≠ [] := by rintro rfl; exact hn.head (by rw [e]; rfl)
    have hsk : intKey ini.ign s = s := hn.sec s r e h47
    have hs1 : splitKey n = (some s, some r) := by rw [e, splitKey_slash h47, if_neg hr]
    have hs47 : s ≠ [47] := by rintro rfl; exact h47 (by simp)
    by_cases hl : (look ini.sections s).isSome = true
    · have hg : secGet ini s = .sec s := by
        unfold secGet
        rw [if_neg (by simp [hsne, hs47]), hsk, if_pos hl]
      have e1 : addOne ini idx n v = ({ ini with sections := upd ini.sections s ((look ini.sections s).getD [] ++ [.kv r v none]) }, idx) := by
        unfold addOne
        rw [hs1]
        simp only [hg]
        rfl
      rw [e1]
      have hap : Apart (ini.sections.map (·.1)) := t.heads ▸ t.apart
      have hupd : ∀ p ∈ upd ini.sections s ((look ini.sections s).getD [] ++ [.kv r v none]), p ∈ ini.sections ∨ (Same p.1 s ∧ p.2 = (look ini.sections s).getD [] ++ [.kv r v none] ∧ ∃ q ∈ ini.sections, q.1 = p.1 ∧ look ini.sections s = some q.2) := by
        intro p hp
        unfold upd at hp
        obtain ⟨q, hq, rfl⟩ := List.mem_map.1 hp
        by_cases hx : fold q.1 = fold s
        · rw [if_pos hx]
          refine .inr ⟨hx, rfl, q, hq, rfl, ?_⟩
          exact look_of_mem hap hq hx
        · rw [if_neg hx]; exact .inl hq
      refine ⟨pre, hs, ⟨t.split, t.plain, ?_, t.apart, t.name, t.root, ?_⟩, hi, rfl, rfl, ?_, fun e he => .inl he, ?_, fun p hp => .inl hp, .inl rfl⟩
      · rw [t.heads]; exact (keys_upd _ _ _).symm
      · intro p hp
        rcases hupd p hp with h | ⟨_, h2, q, hq, _, h4⟩
        · exact t.inner p h
        · rw [h2, h4]
          intro e he n' c hx
          rcases List.mem_append.1 he with he | he
          · exact t.inner q hq e he n' c hx
          · rw [List.mem_singleton.1 he] at hx; cases hx
      · intro k
        unfold treeVals
        simp only
        rw [occs_upd hap (fun p hp => (hnames p hp).2) h47 hl, ← List.append_assoc, e]
        rfl
      · intro p hp e' he
        rcases hupd p hp with h | ⟨h1, h2, q, hq, h3, h4⟩
        · exact .inl ⟨p, h, rfl, he⟩
        · rw [h2, h4] at he
          rcases List.mem_append.1 he with he | he
          · exact .inl ⟨q, hq, h3, he⟩
          · exact .inr ⟨s, r, e, h47, h1, List.mem_singleton.1 he⟩
    · have hln : look ini.sections s = none := by
        cases h : look ini.sections s with
        | none => rfl
        | some x => rw [h] at hl; exact absurd rfl hl
      have hg : secGet ini s = .null := by
        unfold secGet
        rw [if_neg (by simp [hsne, hs47]), hsk, if_neg hl]
      have hni : secInsert ini s = { ini with sections := ini.sections ++ [(s, [])], lookup := ins ini.lookup (intKey ini.ign (s ++ [47])) s } := by
        unfold secInsert
        rw [if_neg hsne, hsk, if_neg hl]
        unfold ins
        rw [if_neg hsne, if_neg hl]
        simp [fullKey]
      have hl2 : look (ini.sections ++ [(s, ([] : List Elem))]) s = some [] := by
        rw [look_append, hln]
        simp [look]
      have hg2 : ∀ (i : Ini), i.sections = ini.sections ++ [(s, [])] → i.ign = ini.ign → secGet i s = .sec s := by
        intro i h1 h2
        unfold secGet
        rw [if_neg (by simp [hsne, hs47]), h2, hsk, h1, hl2]
        rfl
      have hu : upd (ini.sections ++ [(s, ([] : List Elem))]) s [.kv r v none] = ini.sections ++ [(s, [.kv r v none])] := by
        unfold upd
        rw [List.map_append]
        have : ini.sections.map (fun p => if fold p.1 = fold s then (p.1, [Elem.kv r v none]) else p) = ini.sections := by
          conv => rhs; rw [← List.map_id ini.sections]
          apply List.map_congr_left
          intro q hq
          rw [if_neg]; rfl
          intro hx
          have : (look ini.sections s).isSome = true := by
            rw [look_isSome]
            exact ⟨q.1, List.mem_map_of_mem (f := fun x : List UInt8 × List Elem => x.1) hq, hx⟩
          exact hl this
        rw [this]; simp
      have e1 : addOne ini idx n v = ({ ini with elements := ini.elements ++ [.section s none], sections := ini.sections ++ [(s, [.kv r v none])], lookup := ins ini.lookup (intKey ini.ign (s ++ [47])) s }, idx) := by
        unfold addOne
        rw [hs1]
        simp only [hg, hni]
        rw [hg2 { ini with elements := ini.elements ++ [.section s none], sections := ini.sections ++ [(s, [])], lookup := ins ini.lookup (intKey ini.ign (s ++ [47])) s } rfl rfl]
        simp only [elems, setElems, hl2, Option.getD_some, List.nil_append]
        rw [hu]
      rw [e1]
      have hsec : occs [(s, [Elem.kv r v none])] = fun k => if Same n k then [v] else [] := by
        funext k
        simp only [occs, List.flatMap_cons, List.flatMap_nil, List.append_nil, occ_kv]
        rw [e]; rfl
      refine ⟨pre, hs ++ [(s, none)], ⟨?_, t.plain, ?_, ?_, ?_, t.root, ?_⟩, hi, rfl, rfl, ?_, fun e he => .inl he, ?_, ?_, .inr ⟨s, r, e, h47, rfl⟩⟩
      · simp only; rw [t.split]; simp [header]
      · simp [t.heads]
      · rw [List.map_append]
        refine List.pairwise_append.2 ⟨t.apart, by simp, ?_⟩
        intro a ha b hb
        rw [List.map_cons, List.map_nil, List.mem_singleton] at hb
        subst hb
        intro hx
        rw [t.heads] at ha
        exact hl (look_isSome.2 ⟨a, ha, hx⟩)
      · intro p hp
        rcases List.mem_append.1 hp with hp | hp
        · exact t.name p hp
        · rw [List.mem_singleton.1 hp]; exact ⟨hsne, h47, hsk⟩
      · intro p hp
        rcases List.mem_append.1 hp with hp | hp
        · exact t.inner p hp
        · rw [List.mem_singleton.1 hp]
          intro e he n' c hx
          rw [List.mem_singleton.1 he] at hx; cases hx
      · intro k
        unfold treeVals
        simp only
        have h1 : occ none (ini.elements ++ [.section s none]) k = occ none ini.elements k := by
          rw [occ_app]; simp [occ]
        have h2 : occs (ini.sections ++ [(s, [.kv r v none])]) k = occs ini.sections k ++ occs [(s, [Elem.kv r v none])] k := by simp [occs]
        rw [h1, h2, hsec, List.append_assoc]
      · intro p hp e' he
        rcases List.mem_append.1 hp with hp | hp
        · exact .inl ⟨p, hp, rfl, he⟩
        · rw [List.mem_singleton.1 hp] at he ⊢
          exact .inr ⟨s, r, e, h47, rfl, List.mem_singleton.1 he⟩
      · intro p hp
        rcases List.mem_append.1 hp with hp | hp
        · exact .inl hp
        · exact .inr ⟨s, r, e, h47, List.mem_singleton.1 hp⟩

end Verif.Ini
