import Verif.Bitlist.Model
import Verif.Str.SplitProps
import Verif.Bithacks.Props
/- Listing a set of bits and parsing the list again. -/
namespace Verif.Bitlist
open Verif.Str (eq trim explode Alike NoOuter join eq_iff trim_eq explode_join join_cons)

/-- A table whose names can be told apart in a list: not empty, without the delimiter, without white space at the ends
(unless white space is not trimmed), and names that are alike stand for the same bits. -/
structure Fit (fl : Flags) (tab : List Entry) (delim : UInt8) : Prop where
  d0 : delim ≠ 0
  ne : ∀ t ∈ tab, t.name ≠ []
  z : ∀ t ∈ tab, 0 ∉ t.name
  d : ∀ t ∈ tab, delim ∉ t.name
  len : ∀ t ∈ tab, t.name.length < Buf.W
  sp : fl.dontTrim = true ∨ ∀ t ∈ tab, NoOuter t.name
  uniq : ∀ t ∈ tab, ∀ u ∈ tab, Alike (!fl.caseSensitive) t.name u.name → t.id = u.id

theorem alike_refl (ci : Bool) (a : List UInt8) : Alike ci a a := by
  induction a with
  | nil => exact .nil
  | cons x a ih => exact .cons (Or.inl rfl) ih

theorem lookup_spec (cs : Bool) (tab : List Entry) (u : Entry) (hu : u ∈ tab) (hl : ∀ t ∈ tab, t.name.length < Buf.W)
    (hq : ∀ t ∈ tab, Alike (!cs) t.name u.name → t.id = u.id) : lookup cs u.name tab = some u.id := by
  have hul := hl u hu
  induction tab with
  | nil => cases hu
  | cons t ts ih =>
    unfold lookup
    by_cases h : eq (!cs) t.name u.name = true
    · rw [if_pos h, hq t (by simp) ((eq_iff _ _ _ (hl t (by simp)) hul).1 h)]
    · rw [if_neg h]
      rcases List.mem_cons.1 hu with rfl | hu
      · exact absurd ((eq_iff _ _ _ hul hul).2 (alike_refl _ _)) h
      · exact ih hu (fun t h => hl t (by simp [h])) (fun t h => hq t (by simp [h]))

/-- The bits of the entries. -/
def union : List Entry → BitVec 64
  | [] => 0
  | t :: ts => t.id ||| union ts

theorem parseLoop_names {fl : Flags} {tab : List Entry} {delim : UInt8} (f : Fit fl tab delim) (hp : fl.dontPow2 = true ∨ ∀ t ∈ tab, Bithacks.isPow64 t.id.toNat = true) :
    ∀ (us : List Entry) (out : BitVec 64), (∀ u ∈ us, u ∈ tab) → parseLoop fl tab (us.map (·.name)) out = some (out ||| union us) := by
  intro us
  induction us with
  | nil => intro out _; simp [parseLoop, union]
  | cons u us ih =>
    intro out hu
    have hut := hu u (by simp)
    rw [List.map_cons, parseLoop]
    have hy : (if fl.dontTrim = true then u.name else trim u.name) = u.name := by
      rcases f.sp with h | h
      · rw [if_pos h]
      · split
        · rfl
        · exact trim_eq (h u hut)
    simp only [hy]
    rw [if_neg (f.ne u hut), lookup_spec fl.caseSensitive tab u hut f.len (fun t ht => f.uniq t ht u hut)]
    dsimp only
    rw [if_neg, ih _ (fun v hv => hu v (by simp [hv])), union]
    · rw [BitVec.or_assoc]
    · rintro ⟨h1, h2⟩
      rcases hp with hp | hp
      · rw [hp] at h1; cases h1
      · rw [hp u hut] at h2; cases h2

theorem join_snoc (d : List UInt8) (x : List UInt8) : ∀ (xs : List (List UInt8)), xs ≠ [] → join d (xs ++ [x]) = join d xs ++ d ++ x
  | [], h => absurd rfl h
  | [y], _ => by simp [join]
  | y :: z :: ys, _ => by
    have h1 := join_snoc d x (z :: ys) (by simp)
    rw [List.cons_append, join_cons _ _ (show z :: ys ++ [x] ≠ [] by simp), h1, join_cons _ _ (show z :: ys ≠ [] by simp)]
    simp only [List.append_assoc]

theorem join_ne (d : List UInt8) {xs : List (List UInt8)} (h : xs ≠ []) (hx : ∀ x ∈ xs, x ≠ []) : join d xs ≠ [] := by
  match xs, h with
  | [x], _ => exact hx x (by simp)
  | x :: y :: ys, _ =>
    intro e
    rw [join_cons _ _ (by simp)] at e
    simp only [List.append_eq_nil_iff] at e
    exact hx x (by simp) e.1.1

theorem join_mem (d : List UInt8) {xs : List (List UInt8)} {c : UInt8} (h : c ∈ join d xs) : c ∈ d ∨ ∃ x ∈ xs, c ∈ x := by
  match xs with
  | [] => simp [join] at h
  | [x] => exact Or.inr ⟨x, by simp, h⟩
  | x :: y :: ys =>
    rw [join_cons _ _ (by simp)] at h
    simp only [List.mem_append] at h
    rcases h with (h | h) | h
    · exact Or.inr ⟨x, by simp, h⟩
    · exact Or.inl h
    · rcases join_mem d h with h | ⟨z, hz, h⟩
      · exact Or.inl h
      · exact Or.inr ⟨z, by simp only [List.mem_cons] at hz ⊢; exact Or.inr hz, h⟩

theorem bit_ext {a b : BitVec 64} (h : ∀ i, a.getLsbD i = b.getLsbD i) : a = b := BitVec.eq_of_getLsbD_eq fun i _ => h i

/-- What has been listed: entries of the table, whose bits together are the bits gone from the set. -/
theorem listLoop_spec (fl : Flags) (delim : UInt8) (tab : List Entry) : ∀ (ts : List Entry) (us : List Entry) (bits : BitVec 64) (r : List UInt8 × BitVec 64),
    (∀ t ∈ ts, t ∈ tab) → (∀ t ∈ tab, t.name ≠ []) → (∀ u ∈ us, u ∈ tab) → listLoop fl delim ts bits (join [delim] (us.map (·.name))) = some r →
    (∃ vs, (∀ u ∈ vs, u ∈ tab) ∧ r.1 = join [delim] ((us ++ vs).map (·.name)) ∧ bits = r.2 ||| union vs ∧ r.2 &&& union vs = 0 ∧
      ∀ t ∈ ts, r.2 &&& t.id = t.id → t.id = 0) ∧ (fl.dontPow2 = true ∨ ∀ t ∈ ts, t.id ≠ 0 → Bithacks.isPow64 t.id.toNat = true) := by
  intro ts
  induction ts with
  | nil =>
    intro us bits r _ _ _ h
    simp only [listLoop, Option.some.injEq] at h
    subst h
    exact ⟨⟨[], by simp, by simp, by simp [union], by simp [union], by simp⟩, Or.inr (by simp)⟩
  | cons t ts ih =>
    intro us bits r hts hne hus h
    unfold listLoop at h
    by_cases hp : fl.dontPow2 = false ∧ t.id ≠ 0 ∧ Bithacks.isPow64 t.id.toNat = false
    · rw [if_pos hp] at h; cases h
    · rw [if_neg hp] at h
      have hp' : fl.dontPow2 = true ∨ (t.id ≠ 0 → Bithacks.isPow64 t.id.toNat = true) := by
        by_cases h1 : fl.dontPow2 = true
        · exact Or.inl h1
        · refine Or.inr fun h2 => ?_
          by_cases h3 : Bithacks.isPow64 t.id.toNat = true
          · exact h3
          · exact absurd ⟨by simpa using h1, h2, by simpa using h3⟩ hp
      have comb : (fl.dontPow2 = true ∨ ∀ t ∈ ts, t.id ≠ 0 → Bithacks.isPow64 t.id.toNat = true) → (fl.dontPow2 = true ∨ ∀ u ∈ t :: ts, u.id ≠ 0 → Bithacks.isPow64 u.id.toNat = true) := by
        rintro (h1 | h1)
        · exact Or.inl h1
        · rcases hp' with h2 | h2
          · exact Or.inl h2
          · refine Or.inr fun u hu => ?_
            rcases List.mem_cons.1 hu with rfl | hu
            · exact h2
            · exact h1 u hu
      by_cases hb : bits &&& t.id = t.id
      · rw [if_pos hb] at h
        have hj : (if join [delim] (us.map (·.name)) ≠ [] then join [delim] (us.map (·.name)) ++ [delim] else join [delim] (us.map (·.name))) ++ t.name =
            join [delim] ((us ++ [t]).map (·.name)) := by
          by_cases hu : us = []
          · subst hu; simp [join]
          · rw [if_pos (join_ne _ (by simpa using hu) (by simp only [List.mem_map]; rintro x ⟨u, hu, rfl⟩; exact hne u (hus u hu)))]
            rw [List.map_append, List.map_cons, List.map_nil, join_snoc _ _ _ (by simpa using hu)]
        rw [hj] at h
        obtain ⟨⟨vs, h1, h2, h3, h4, h5⟩, h6⟩ := ih (us ++ [t]) _ r (fun t h => hts t (by simp [h])) hne
          (by intro u hu; simp only [List.mem_append, List.mem_singleton] at hu; exact hu.elim (fun hu => hus u hu) (fun hu => hu ▸ hts t (by simp))) h
        have hbit : ∀ i, (t.id.getLsbD i = true → bits.getLsbD i = true) := by
          intro i hi
          have := congrArg (·.getLsbD i) hb
          simp only [BitVec.getLsbD_and, hi, Bool.and_true] at this
          exact this
        have hr0 : ∀ i, t.id.getLsbD i = true → r.2.getLsbD i = false ∧ (union vs).getLsbD i = false := by
          intro i hi
          have hlt : i < 64 := BitVec.lt_of_getLsbD hi
          have := congrArg (·.getLsbD i) h3
          simp only [BitVec.getLsbD_and, BitVec.getLsbD_or, BitVec.getLsbD_not, hi, hlt, decide_true, Bool.not_true, Bool.and_false] at this
          simpa using this.symm
        refine ⟨⟨t :: vs, ?_, by rw [h2]; simp, ?_, ?_, ?_⟩, comb h6⟩
        · intro u hu
          rcases List.mem_cons.1 hu with rfl | hu
          · exact hts u (by simp)
          · exact h1 u hu
        · apply bit_ext
          intro i
          have := congrArg (·.getLsbD i) h3
          simp only [BitVec.getLsbD_and, BitVec.getLsbD_or, BitVec.getLsbD_not, union] at this ⊢
          cases ht : t.id.getLsbD i
          · by_cases hlt : i < 64
            · simp only [ht, hlt, decide_true, Bool.not_false, Bool.and_true, Bool.true_and] at this
              rw [this]; simp
            · rw [BitVec.getLsbD_of_ge _ _ (by omega), BitVec.getLsbD_of_ge _ _ (by omega), BitVec.getLsbD_of_ge _ _ (by omega)]; rfl
          · rw [hbit i ht]; simp
        · apply bit_ext
          intro i
          have := congrArg (·.getLsbD i) h4
          simp only [BitVec.getLsbD_and, BitVec.getLsbD_or, union] at this ⊢
          cases ht : t.id.getLsbD i
          · simpa using this
          · rw [(hr0 i ht).1]; simp
        · intro u hu hs
          rcases List.mem_cons.1 hu with rfl | hu
          · apply bit_ext
            intro i
            have := congrArg (·.getLsbD i) hs
            simp only [BitVec.getLsbD_and] at this
            cases ht : u.id.getLsbD i
            · simp
            · rw [(hr0 i ht).1, ht] at this; cases this
          · exact h5 u hu hs
      · rw [if_neg hb] at h
        obtain ⟨⟨vs, h1, h2, h3, h4, h5⟩, h6⟩ := ih us _ r (fun t h => hts t (by simp [h])) hne hus h
        refine ⟨⟨vs, h1, h2, h3, h4, ?_⟩, comb h6⟩
        intro u hu hs
        rcases List.mem_cons.1 hu with rfl | hu
        · exfalso
          apply hb
          apply bit_ext
          intro i
          have := congrArg (·.getLsbD i) hs
          rw [h3]
          simp only [BitVec.getLsbD_and, BitVec.getLsbD_or] at this ⊢
          cases ht : u.id.getLsbD i
          · simp
          · rw [ht, Bool.and_true] at this; rw [this]; simp
        · exact h5 u hu hs

/-- Listing a set of bits and parsing the text gives the set back; with unknown bits ignored, the set without some bits
that contain the bits of no table entry.  Missing: entries with no bits, see `zero_fails`. -/
theorem list_parse_partial (fl : Flags) (tab : List Entry) (delim : UInt8) (f : Fit fl tab delim) (h0 : ∀ t ∈ tab, t.id ≠ 0) (bits : BitVec 64) (text : List UInt8)
    (h : list fl tab bits delim = some text) :
    ∃ v, parse fl tab text delim = some (some v) ∧ (fl.ignoreUnknown = false → v = bits) ∧
      ∃ rest, bits = rest ||| v ∧ rest &&& v = 0 ∧ ∀ t ∈ tab, rest &&& t.id ≠ t.id := by
  unfold list at h
  rw [if_neg f.d0] at h
  obtain ⟨r, h1, h2⟩ := Option.bind_eq_some_iff.1 h
  obtain ⟨⟨vs, v1, v2, v3, v4, v5⟩, v6⟩ := listLoop_spec fl delim tab tab [] bits r (fun t h => h) f.ne (by simp) h1
  have hp : fl.dontPow2 = true ∨ ∀ t ∈ tab, Bithacks.isPow64 t.id.toNat = true := v6.elim Or.inl fun h => Or.inr fun t ht => h t ht (h0 t ht)
  by_cases hi : fl.ignoreUnknown = false ∧ r.2 ≠ 0
  · rw [if_pos hi] at h2; cases h2
  · rw [if_neg hi] at h2
    have htext : text = join [delim] (vs.map (·.name)) := by
      have := Option.some.inj h2
      rw [← this, v2]; rfl
    refine ⟨union vs, ?_, ?_, r.2, v3, v4, fun t ht hs => h0 t ht (v5 t ht hs)⟩
    · unfold parse
      rw [if_neg f.d0, htext]
      by_cases hvs : vs = []
      · subst hvs; rfl
      · rw [explode_join]
        · rw [Option.map_some, parseLoop_names f hp vs 0 v1]; simp
        · simp only [List.mem_map]
          rintro x ⟨u, hu, rfl⟩
          exact f.d u (v1 u hu)
        · intro hz
          rcases join_mem _ hz with hz | ⟨x, hx, hz⟩
          · simp at hz; exact f.d0 hz.symm
          · simp only [List.mem_map] at hx
            obtain ⟨u, hu, rfl⟩ := hx
            exact f.z u (v1 u hu) hz
        · refine join_ne _ (by simpa using hvs) ?_
          simp only [List.mem_map]
          rintro x ⟨u, hu, rfl⟩
          exact f.ne u (v1 u hu)
    · intro hu
      have : r.2 = 0 := by
        by_cases h : r.2 = 0
        · exact h
        · exact absurd ⟨hu, h⟩ hi
      rw [v3, this]; simp

/-- Listing refuses bits that no entry of the table covers, unless they are to be ignored. -/
theorem list_unknown (fl : Flags) (tab : List Entry) (delim : UInt8) (hn : ∀ t ∈ tab, t.name ≠ []) (bits : BitVec 64) (hi : fl.ignoreUnknown = false) (i : Nat) (hb : bits.getLsbD i = true)
    (hu : ∀ t ∈ tab, t.id.getLsbD i = false) : list fl tab bits delim = none := by
  cases h : list fl tab bits delim with
  | none => rfl
  | some text =>
    exfalso
    unfold list at h
    split at h
    · cases h
    · obtain ⟨r, h1, h2⟩ := Option.bind_eq_some_iff.1 h
      obtain ⟨⟨vs, v1, v2, v3, v4, v5⟩, v6⟩ := listLoop_spec fl delim tab tab [] bits r (fun t h => h) hn (by simp) h1
      have hun : (union vs).getLsbD i = false := by
        have : ∀ vs : List Entry, (∀ u ∈ vs, u ∈ tab) → (union vs).getLsbD i = false := by
          intro vs
          induction vs with
          | nil => intro _; simp [union]
          | cons v vs ih => intro hv; simp only [union, BitVec.getLsbD_or, hu v (hv v (by simp)), ih fun u h => hv u (by simp [h])]; rfl
        exact this vs v1
      split at h2
      · cases h2
      · rename_i hne
        have hr : r.2 = 0 := by
          by_cases h : r.2 = 0
          · exact h
          · exact absurd ⟨hi, h⟩ hne
        have := congrArg (·.getLsbD i) v3
        simp only [BitVec.getLsbD_or, hr, hun, hb] at this
        simp at this

/-- The part as it is looked up (`Str.trim_correct` says what `trim` does). -/
def part (fl : Flags) (x : List UInt8) : List UInt8 := if fl.dontTrim then x else trim x

theorem lookup_some {cs : Bool} {y : List UInt8} (hy : y.length < Buf.W) : ∀ {tab : List Entry} {id : BitVec 64}, (∀ t ∈ tab, t.name.length < Buf.W) →
    lookup cs y tab = some id → ∃ t ∈ tab, Alike (!cs) t.name y ∧ t.id = id
  | [], _, _, h => by cases h
  | t :: ts, id, hl, h => by
    unfold lookup at h
    by_cases he : eq (!cs) t.name y = true
    · rw [if_pos he] at h
      exact ⟨t, by simp, (eq_iff _ _ _ (hl t (by simp)) hy).1 he, Option.some.inj h⟩
    · rw [if_neg he] at h
      obtain ⟨u, h1, h2⟩ := lookup_some hy (fun t h => hl t (by simp [h])) h
      exact ⟨u, by simp [h1], h2⟩

theorem lookup_none {cs : Bool} {y : List UInt8} (hy : y.length < Buf.W) : ∀ {tab : List Entry}, (∀ t ∈ tab, t.name.length < Buf.W) →
    lookup cs y tab = none → ∀ t ∈ tab, ¬ Alike (!cs) t.name y
  | [], _, _ => by simp
  | t :: ts, hl, h => by
    unfold lookup at h
    by_cases he : eq (!cs) t.name y = true
    · rw [if_pos he] at h; cases h
    · rw [if_neg he] at h
      intro u hu ha
      rcases List.mem_cons.1 hu with rfl | hu
      · exact he ((eq_iff _ _ _ (hl u (by simp)) hy).2 ha)
      · exact lookup_none hy (fun t h => hl t (by simp [h])) h u hu ha

/-- What parsing makes of the parts: a part that is empty once trimmed is skipped; any other must name an entry (of exactly one
bit, unless that is not required) or, if that is allowed, no entry at all; the result has the bits of all named entries. -/
theorem parseLoop_correct (fl : Flags) (tab : List Entry) (hl : ∀ t ∈ tab, t.name.length < Buf.W)
    (hq : ∀ t ∈ tab, ∀ u ∈ tab, ∀ y, Alike (!fl.caseSensitive) t.name y → Alike (!fl.caseSensitive) u.name y → t.id = u.id) :
    ∀ (xs : List (List UInt8)), (∀ x ∈ xs, (part fl x).length < Buf.W) → ∀ out v, parseLoop fl tab xs out = some v ↔
    ((∀ x ∈ xs, part fl x ≠ [] → (∃ t ∈ tab, Alike (!fl.caseSensitive) t.name (part fl x) ∧ (fl.dontPow2 = true ∨ ∃ k, t.id.toNat = 2 ^ k)) ∨
      (fl.ignoreUnknown = true ∧ ∀ t ∈ tab, ¬ Alike (!fl.caseSensitive) t.name (part fl x))) ∧
    ∀ i, v.getLsbD i = true ↔ out.getLsbD i = true ∨ ∃ x ∈ xs, part fl x ≠ [] ∧ ∃ t ∈ tab, Alike (!fl.caseSensitive) t.name (part fl x) ∧ t.id.getLsbD i = true) := by
  intro xs
  induction xs with
  | nil =>
    intro _ out v
    simp only [parseLoop, Option.some.injEq, List.not_mem_nil, false_implies, implies_true, true_and, false_and, exists_false, or_false]
    constructor
    · rintro rfl i; rfl
    · intro h
      exact bit_ext fun i => by have := h i; cases ho : out.getLsbD i <;> cases hv : v.getLsbD i <;> simp_all
  | cons x xs ih =>
    intro hx out v
    have hy := hx x (by simp)
    have ih := ih (fun x h => hx x (by simp [h]))
    rw [parseLoop]
    change (if part fl x = [] then _ else _) = some v ↔ _
    by_cases he : part fl x = []
    · rw [if_pos he, ih]
      simp [he]
    · rw [if_neg he]
      change (match lookup fl.caseSensitive (part fl x) tab with | none => _ | some id => _) = some v ↔ _
      cases hk : lookup fl.caseSensitive (part fl x) tab with
      | none =>
        have hn := lookup_none hy hl hk
        dsimp only
        by_cases hi : fl.ignoreUnknown = true
        · rw [if_pos hi, ih]
          constructor
          · rintro ⟨h1, h2⟩
            refine ⟨?_, ?_⟩
            · intro z hz hze
              rcases List.mem_cons.1 hz with rfl | hz
              · exact Or.inr ⟨hi, hn⟩
              · exact h1 z hz hze
            · intro i
              rw [h2 i]
              constructor
              · rintro (h | ⟨z, hz, h⟩)
                · exact Or.inl h
                · exact Or.inr ⟨z, by simp [hz], h⟩
              · rintro (h | ⟨z, hz, hze, t, ht, ha, hb⟩)
                · exact Or.inl h
                · rcases List.mem_cons.1 hz with rfl | hz
                  · exact absurd ha (hn t ht)
                  · exact Or.inr ⟨z, hz, hze, t, ht, ha, hb⟩
          · rintro ⟨h1, h2⟩
            refine ⟨fun z hz => h1 z (by simp [hz]), fun i => ?_⟩
            rw [h2 i]
            constructor
            · rintro (h | ⟨z, hz, hze, t, ht, ha, hb⟩)
              · exact Or.inl h
              · rcases List.mem_cons.1 hz with rfl | hz
                · exact absurd ha (hn t ht)
                · exact Or.inr ⟨z, hz, hze, t, ht, ha, hb⟩
            · rintro (h | ⟨z, hz, h⟩)
              · exact Or.inl h
              · exact Or.inr ⟨z, by simp [hz], h⟩
        · rw [if_neg hi]
          constructor
          · intro h; cases h
          · rintro ⟨h1, -⟩
            rcases h1 x (by simp) he with ⟨t, ht, ha, -⟩ | ⟨h, -⟩
            · exact absurd ha (hn t ht)
            · exact absurd h hi
      | some id =>
        obtain ⟨t, ht, ha, hid⟩ := lookup_some hy hl hk
        dsimp only
        by_cases hp : fl.dontPow2 = false ∧ Bithacks.isPow64 id.toNat = false
        · rw [if_pos hp]
          constructor
          · intro h; cases h
          · rintro ⟨h1, -⟩
            rcases h1 x (by simp) he with ⟨u, hu, hau, hpu⟩ | ⟨h, hn⟩
            · rw [hq u hu t ht _ hau ha, hid] at hpu
              rcases hpu with hpu | hpu
              · rw [hp.1] at hpu; cases hpu
              · rw [← (Bithacks.isPow_iff _).2] at hpu
                rw [hp.2] at hpu; cases hpu
            · exact absurd ha (hn t ht)
        · rw [if_neg hp, ih]
          have hpt : fl.dontPow2 = true ∨ ∃ k, t.id.toNat = 2 ^ k := by
            by_cases h1 : fl.dontPow2 = true
            · exact Or.inl h1
            · refine Or.inr ((Bithacks.isPow_iff _).2.1 ?_)
              rw [hid]
              by_cases h2 : Bithacks.isPow64 id.toNat = true
              · exact h2
              · exact absurd ⟨by simpa using h1, by simpa using h2⟩ hp
          have hbits : ∀ i, ((out ||| id).getLsbD i = true ∨ ∃ z ∈ xs, part fl z ≠ [] ∧ ∃ t ∈ tab, Alike (!fl.caseSensitive) t.name (part fl z) ∧ t.id.getLsbD i = true) ↔
              (out.getLsbD i = true ∨ ∃ z ∈ x :: xs, part fl z ≠ [] ∧ ∃ t ∈ tab, Alike (!fl.caseSensitive) t.name (part fl z) ∧ t.id.getLsbD i = true) := by
            intro i
            rw [BitVec.getLsbD_or, Bool.or_eq_true]
            constructor
            · rintro ((h | h) | ⟨z, hz, h⟩)
              · exact Or.inl h
              · exact Or.inr ⟨x, by simp, he, t, ht, ha, by rw [hid]; exact h⟩
              · exact Or.inr ⟨z, by simp [hz], h⟩
            · rintro (h | ⟨z, hz, hze, u, hu, hau, hb⟩)
              · exact Or.inl (Or.inl h)
              · rcases List.mem_cons.1 hz with rfl | hz
                · rw [hq u hu t ht _ hau ha, hid] at hb
                  exact Or.inl (Or.inr hb)
                · exact Or.inr ⟨z, hz, hze, u, hu, hau, hb⟩
          constructor
          · rintro ⟨h1, h2⟩
            refine ⟨?_, fun i => by rw [h2 i, hbits i]⟩
            intro z hz hze
            rcases List.mem_cons.1 hz with rfl | hz
            · exact Or.inl ⟨t, ht, ha, hpt⟩
            · exact h1 z hz hze
          · rintro ⟨h1, h2⟩
            exact ⟨fun z hz => h1 z (by simp [hz]), fun i => by rw [h2 i, hbits i]⟩

theorem part_length (fl : Flags) (x : List UInt8) : (part fl x).length ≤ x.length := by
  unfold part
  split
  · exact Nat.le_refl _
  · obtain ⟨a, b, h, -⟩ := Str.trim_correct x
    have := congrArg List.length h
    simp only [List.length_append] at this
    omega

/-- Parsing a list of names joined by the delimiter. -/
theorem parse_correct (fl : Flags) (tab : List Entry) (delim : UInt8) (hd : delim ≠ 0) (hl : ∀ t ∈ tab, t.name.length < Buf.W)
    (hq : ∀ t ∈ tab, ∀ u ∈ tab, ∀ y, Alike (!fl.caseSensitive) t.name y → Alike (!fl.caseSensitive) u.name y → t.id = u.id)
    (xs : List (List UInt8)) (hx : ∀ x ∈ xs, delim ∉ x) (hz : 0 ∉ join [delim] xs) (hne : join [delim] xs ≠ []) (hw : ∀ x ∈ xs, x.length < Buf.W) :
    ∃ r, parse fl tab (join [delim] xs) delim = some r ∧ ∀ v, r = some v ↔
    ((∀ x ∈ xs, part fl x ≠ [] → (∃ t ∈ tab, Alike (!fl.caseSensitive) t.name (part fl x) ∧ (fl.dontPow2 = true ∨ ∃ k, t.id.toNat = 2 ^ k)) ∨
      (fl.ignoreUnknown = true ∧ ∀ t ∈ tab, ¬ Alike (!fl.caseSensitive) t.name (part fl x))) ∧
    ∀ i, v.getLsbD i = true ↔ ∃ x ∈ xs, part fl x ≠ [] ∧ ∃ t ∈ tab, Alike (!fl.caseSensitive) t.name (part fl x) ∧ t.id.getLsbD i = true) := by
  refine ⟨_, by unfold parse; rw [if_neg hd, explode_join _ _ hx hz hne, Option.map_some], fun v => ?_⟩
  rw [parseLoop_correct fl tab hl hq xs (fun x h => Nat.lt_of_le_of_lt (part_length fl x) (hw x h))]
  simp

/-- An entry without bits is always listed, but its name is refused when powers of two are required. -/
theorem zero_fails : list ⟨false, false, false, false⟩ [⟨0, [97]⟩, ⟨1, [98]⟩] 1 124 = some [97, 124, 98] ∧
    parse ⟨false, false, false, false⟩ [⟨0, [97]⟩, ⟨1, [98]⟩] [97, 124, 98] 124 = some none := by decide +kernel

/-- The name of a single value is translated back to it. -/
theorem single_roundtrip (tab : List Entry) (hl : ∀ t ∈ tab, t.name.length < Buf.W) (hq : ∀ t ∈ tab, ∀ u ∈ tab, Alike true t.name u.name → t.id = u.id) (id : BitVec 64) (name : List UInt8)
    (h : singleToStr tab id = some name) : singleToInt tab name = id := by
  have hm : ∃ u ∈ tab, u.id = id ∧ u.name = name := by
    induction tab with
    | nil => cases h
    | cons t ts ih =>
      unfold singleToStr at h
      by_cases ht : t.id = id
      · rw [if_pos ht] at h
        exact ⟨t, by simp, ht, Option.some.inj h⟩
      · rw [if_neg ht] at h
        obtain ⟨u, h1, h2⟩ := ih (fun t h => hl t (by simp [h])) (fun t h u h' => hq t (by simp [h]) u (by simp [h'])) h
        exact ⟨u, by simp [h1], h2⟩
  obtain ⟨u, hu, rfl, rfl⟩ := hm
  have hul := hl u hu
  have hqu := fun t ht => hq t ht u hu
  clear hq h
  induction tab with
  | nil => cases hu
  | cons t ts ih =>
    unfold singleToInt
    by_cases h : eq true t.name u.name = true
    · rw [if_pos h]; exact hqu t (by simp) ((eq_iff _ _ _ (hl t (by simp)) hul).1 h)
    · rw [if_neg h]
      rcases List.mem_cons.1 hu with rfl | hu
      · exact absurd ((eq_iff _ _ _ hul hul).2 (alike_refl _ _)) h
      · exact ih (fun t h => hl t (by simp [h])) hu (fun t h => hqu t (by simp [h]))

/-- A table that meets the conditions. -/
example : Fit ⟨false, false, false, false⟩ [⟨1, [82, 101, 100]⟩, ⟨4, [66, 108, 117, 101]⟩] 124 ∧
    list ⟨false, false, false, false⟩ [⟨1, [82, 101, 100]⟩, ⟨4, [66, 108, 117, 101]⟩] 5 124 = some [82, 101, 100, 124, 66, 108, 117, 101] ∧
    parse ⟨false, false, false, false⟩ [⟨1, [82, 101, 100]⟩, ⟨4, [66, 108, 117, 101]⟩] [32, 98, 76, 117, 101, 124, 114, 101, 100] 124 = some (some 5) := by
  refine ⟨⟨by decide, by decide, by decide, by decide, by decide, Or.inr ?_, ?_⟩, by decide +kernel, by decide +kernel⟩
  · intro t ht
    simp only [List.mem_cons, List.not_mem_nil, or_false] at ht
    rcases ht with rfl | rfl
    · refine ⟨?_, ?_⟩
      · intro c t h; simp at h; rw [← h.1]; decide
      · intro c t h
        have := congrArg List.getLast? h
        rw [List.getLast?_concat] at this
        simp at this; rw [← this]; decide
    · refine ⟨?_, ?_⟩
      · intro c t h; simp at h; rw [← h.1]; decide
      · intro c t h
        have := congrArg List.getLast? h
        rw [List.getLast?_concat] at this
        simp at this; rw [← this]; decide
  · intro t ht u hu ha
    have := ha.length
    simp only [List.mem_cons, List.not_mem_nil, or_false] at ht hu
    rcases ht with rfl | rfl <;> rcases hu with rfl | rfl <;> first | rfl | (simp at this)

end Verif.Bitlist
