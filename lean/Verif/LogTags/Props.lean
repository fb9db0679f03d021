import Verif.LogTags.Model
import Verif.Bithacks.Props
import Verif.Table.Props
import Verif.ExceptDec

/-!
# C129: tags, lines and memory buffers of the log
-/

namespace Verif.LogTags
open Verif Verif.Table

/-! ## Sets of tags -/

/-- The sets of tags below, up to, above and from a tag on, where a number that is no tag counts as its highest bit. -/
theorem tags_correct {tag k : Nat} (h : tag < 2 ^ 64) (h1 : 2 ^ k ≤ tag) (h2 : tag < 2 ^ (k + 1)) {j : Nat} (hj : j < 64) :
    ((tagsLt tag).testBit j = true ↔ j < k) ∧ ((tagsLte tag).testBit j = true ↔ j ≤ k) ∧
      ((tagsGt tag).testBit j = true ↔ k < j) ∧ ((tagsGte tag).testBit j = true ↔ k ≤ j) := by
  have h0 : tag ≠ 0 := by have := Nat.two_pow_pos k; omega
  obtain ⟨i, e, a, b⟩ := Bithacks.roundDown64_correct tag h0 h
  have hik : i = k := by
    have c1 : 2 ^ i < 2 ^ (k + 1) := by omega
    have c2 : 2 ^ k < 2 ^ (i + 1) := by omega
    have := (Nat.pow_lt_pow_iff_right (by omega : 1 < 2)).mp c1
    have := (Nat.pow_lt_pow_iff_right (by omega : 1 < 2)).mp c2
    omega
  subst hik
  have hp := Nat.two_pow_pos i
  have e1 : tagsLt tag = 2 ^ i - 1 := by unfold tagsLt; rw [e]; exact if_neg (by omega)
  have e2 : tagsLte tag = (2 ^ i - 1) ||| 2 ^ i := by unfold tagsLte; rw [e]; exact if_neg (by omega)
  have b1 : (tagsLt tag).testBit j = decide (j < i) := by rw [e1, Nat.testBit_two_pow_sub_one]
  have b2 : (tagsLte tag).testBit j = decide (j ≤ i) := by
    rw [e2, Nat.testBit_or, Nat.testBit_two_pow_sub_one, Nat.testBit_two_pow, Bool.eq_iff_iff]
    simp only [Bool.or_eq_true, decide_eq_true_eq]
    omega
  have b3 : ∀ x : Nat, (x ^^^ (2 ^ 64 - 1)).testBit j = !x.testBit j := by
    intro x
    rw [Nat.testBit_xor, Nat.testBit_two_pow_sub_one, decide_eq_true hj, Bool.xor_true]
  refine ⟨by rw [b1]; simp, by rw [b2]; simp, ?_, ?_⟩
  · unfold tagsGt
    rw [b3, b2]
    simp
  · unfold tagsGte
    rw [b3, b1]
    simp

theorem tags_lt {tag : Nat} (h : tag < 2 ^ 64) : tagsLt tag < 2 ^ 64 ∧ tagsLte tag < 2 ^ 64 ∧ tagsGt tag < 2 ^ 64 ∧ tagsGte tag < 2 ^ 64 := by
  have key : tagsLt tag < 2 ^ 64 ∧ tagsLte tag < 2 ^ 64 := by
    by_cases h0 : tag = 0
    · subst h0; decide +kernel
    · obtain ⟨i, e, a, b⟩ := Bithacks.roundDown64_correct tag h0 h
      have hp := Nat.two_pow_pos i
      have e1 : tagsLt tag = 2 ^ i - 1 := by unfold tagsLt; rw [e]; exact if_neg (by omega)
      have e2 : tagsLte tag = (2 ^ i - 1) ||| 2 ^ i := by unfold tagsLte; rw [e]; exact if_neg (by omega)
      refine ⟨by omega, ?_⟩
      rw [e2]
      exact Nat.or_lt_two_pow (by omega) (by omega)
  exact ⟨key.1, key.2, Nat.xor_lt_two_pow key.2 (by decide), Nat.xor_lt_two_pow key.1 (by decide)⟩

/-- No tags are below or up to 0, and all are above and from 0 on. -/
theorem tags_zero : tagsLt 0 = 0 ∧ tagsLte 0 = 0 ∧ tagsGt 0 = 2 ^ 64 - 1 ∧ tagsGte 0 = 2 ^ 64 - 1 := by decide +kernel

example : tagsLt 8 = 7 ∧ tagsLte 8 = 15 ∧ tagsGt (2 ^ 63) = 0 ∧ tagsGte 12 = 2 ^ 64 - 8 := by decide +kernel

/-! ## Names of tags -/

/-- What a call does to the names: `f` and `f'` give each tag its name.  Names are compared without case. -/
inductive Step (f : Nat → Option Bytes) : Nat → Bytes → Res → (Nat → Option Bytes) → Prop
  | badTag {t n} : (¬ ∃ k, t = 2 ^ k) → Step f t n .badTag f
  | dup {t n u m} : (∃ k, t = 2 ^ k) → u ≠ t → f u = some m → low m = low n → Step f t n .dup f
  | set {t n} : (∃ k, t = 2 ^ k) → n ≠ [] → (∀ u m, u ≠ t → f u = some m → low m ≠ low n) →
      Step f t n .ok (fun u => if u = t then some n else f u)
  | clear {t} : (∃ k, t = 2 ^ k) → Step f t [] .ok (fun u => if u = t then none else f u)

/-- Calls with their results, none of which clears a name. -/
inductive Hist : Log → List (Nat × Bytes × Res) → Log → Prop
  | nil {l} : Hist l [] l
  | cons {l t n r l' hs l''} : (n = [] → getName l t = none) → setName l t n = some (l', r) → Hist l' hs l'' →
      Hist l ((t, n, r) :: hs) l''

inductive Steps : (Nat → Option Bytes) → List (Nat × Bytes × Res) → (Nat → Option Bytes) → Prop
  | nil {f} : Steps f [] f
  | cons {f t n r f' hs f''} : Step f t n r f' → Steps f' hs f'' → Steps f ((t, n, r) :: hs) f''

structure Inv (l : Log) (f : Nat → Option Bytes) : Prop where
  name : ∀ t, aget ideq l.toName t = f t
  pow : ∀ {t m}, f t = some m → (∃ k, t = 2 ^ k) ∧ m ≠ []
  tag : ∀ n t, aget (nmeq true) l.toTag n = some t ↔ ∃ m, f t = some m ∧ low m = low n
  width : ∀ {t m}, f t = some m → m.length ≤ l.width

theorem Inv.create : Inv create (fun _ => none) := ⟨fun _ => rfl, nofun, fun n t => ⟨nofun, nofun⟩, nofun⟩

theorem nm_iff (a b : Bytes) : nmeq true a b = true ↔ low a = low b := by
  have := nmeq_iff (ci := true) (a := a) (b := b)
  simpa [Alike] using this

theorem low_nil {m : Bytes} (h : low m = low []) : m = [] := by
  simpa [low] using h

theorem isPow_false {t : Nat} : Bithacks.isPow64 t = false ↔ ¬ ∃ k, t = 2 ^ k := by
  rw [← (Bithacks.isPow_iff t).2]
  simp

theorem setName_step {l : Log} {f : Nat → Option Bytes} (h : Inv l f) {t : Nat} {n : Bytes} (hc : n = [] → getName l t = none) :
    ∃ l' r f', setName l t n = some (l', r) ∧ Step f t n r f' ∧ Inv l' f' := by
  unfold setName
  by_cases hp : Bithacks.isPow64 t = false
  · rw [if_pos hp]
    exact ⟨_, _, _, rfl, .badTag (isPow_false.mp hp), h⟩
  · rw [if_neg hp]
    have hpow : ∃ k, t = 2 ^ k := Classical.byContradiction fun e => hp (isPow_false.mpr e)
    by_cases hd : ∃ u, aget (nmeq true) l.toTag n = some u ∧ u ≠ t
    · obtain ⟨u, e, hu⟩ := hd
      obtain ⟨m, e1, e2⟩ := (h.tag n u).mp e
      rw [if_pos (by rw [e]; simpa using hu)]
      exact ⟨_, _, _, rfl, .dup hpow hu e1 e2, h⟩
    · have hno : ∀ u m, u ≠ t → f u = some m → low m ≠ low n := fun u m hu e1 e2 => hd ⟨u, (h.tag n u).mpr ⟨m, e1, e2⟩, hu⟩
      rw [if_neg (by
        intro hm
        split at hm
        · rename_i o e
          exact hd ⟨o, e, by simpa using hm⟩
        · cases hm)]
      dsimp only
      by_cases hn : n = []
      · subst hn
        have hnone : aget ideq l.toName t = none := by
          have := hc rfl
          unfold getName at this
          rwa [if_neg hp] at this
        rw [if_pos rfl, hnone]
        have hf : (fun u => if u = t then none else f u) = f := by
          funext u
          split
          · rename_i e
            rw [e, ← h.name, hnone]
          · rfl
        refine ⟨_, _, f, rfl, by have := Step.clear (f := f) hpow; rwa [hf] at this, ?_, h.pow, h.tag, ?_⟩
        · intro u
          rw [aget_adel ideq_eqv]
          split
          · rename_i e
            have : t = u := by simpa [ideq] using e
            rw [← this, ← h.name, hnone]
          · exact h.name u
        · intro u m e
          have := h.width e
          have h0 : m.length ≠ 0 := fun e0 => (h.pow e).2 (List.length_eq_zero_iff.mp e0)
          rw [if_neg (by omega)]
          exact this
      · rw [if_neg hn]
        refine ⟨_, _, _, rfl, .set hpow hn hno, ?_, ?_, ?_, ?_⟩
        · intro u
          rw [aget_aput ideq_eqv]
          by_cases e : u = t
          · subst e; simp [ideq]
          · have : ideq t u = false := by simpa [ideq] using fun e' => e e'.symm
            rw [this, if_neg e]
            exact h.name u
        · intro u m e
          split at e
          · rename_i e'
            cases e
            exact ⟨e' ▸ hpow, hn⟩
          · exact h.pow e
        · intro k u
          have hrest : ∀ k u, low k ≠ low n → (aget (nmeq true) (match aget ideq l.toName t with
              | some o => adel (nmeq true) l.toTag o
              | none => l.toTag) k = some u ↔ ∃ m, (if u = t then some n else f u) = some m ∧ low m = low k) := by
            intro k u hk
            rw [h.name]
            by_cases hut : u = t
            · subst hut
              constructor
              · intro e
                cases ho : f u with
                | none =>
                  rw [ho] at e
                  obtain ⟨m, e1, _⟩ := (h.tag k u).mp e
                  rw [ho] at e1
                  cases e1
                | some o =>
                  rw [ho] at e
                  dsimp only at e
                  rw [aget_adel (nmeq_eqv true)] at e
                  split at e
                  · cases e
                  · rename_i hne
                    obtain ⟨m, e1, e2⟩ := (h.tag k u).mp e
                    rw [ho] at e1
                    cases e1
                    exact absurd ((nm_iff _ _).mpr e2) hne
              · rintro ⟨m, e1, e2⟩
                rw [if_pos rfl] at e1
                cases e1
                exact absurd e2.symm hk
            · rw [if_neg hut]
              cases ho : f t with
              | none => exact h.tag k u
              | some o =>
                dsimp only
                rw [aget_adel (nmeq_eqv true)]
                split
                · rename_i hne
                  have hne := (nm_iff _ _).mp hne
                  constructor
                  · nofun
                  · rintro ⟨m, e1, e2⟩
                    have c1 := (h.tag k u).mpr ⟨m, e1, e2⟩
                    have c2 := (h.tag k t).mpr ⟨o, ho, hne⟩
                    rw [c1] at c2
                    exact absurd (Option.some.inj c2) hut
                · exact h.tag k u
          dsimp only
          rw [aget_aput (nmeq_eqv true)]
          by_cases hk : low n = low k
          · rw [if_pos ((nm_iff _ _).mpr hk)]
            constructor
            · intro e
              cases e
              exact ⟨n, if_pos rfl, hk⟩
            · rintro ⟨m, e1, e2⟩
              split at e1
              · rename_i e; rw [e]
              · rename_i e
                exact absurd (e2.trans hk.symm) (hno u m e e1)
          · rw [if_neg (fun e => hk ((nm_iff _ _).mp e))]
            exact hrest k u fun e => hk e.symm
        · intro u m e
          dsimp only at e ⊢
          split at e
          · cases e
            split <;> omega
          · have := h.width e
            split <;> omega

/-- Any calls that name tags, none of which clears a name: each is accepted or refused as it must be, a tag has the name that was last
given to it, and a name, in any case, leads back to its tag.

Partial: a call that clears the name of a tag that has one reads freed memory, see `clear_fails`. -/
theorem names_partial {hs : List (Nat × Bytes × Res)} {l : Log} (hh : Hist create hs l) :
    ∃ f, Steps (fun _ => none) hs f ∧ (∀ t, getName l t = f t) ∧
      (∀ t m n, f t = some m → low m = low n → getTag l n = t) ∧
      (∀ n, (∀ t m, f t = some m → low m ≠ low n) → getTag l n = 0) ∧
      ∀ t u m n, f t = some m → f u = some n → low m = low n → t = u := by
  have key : ∀ {l0 : Log} {hs l f0}, Hist l0 hs l → Inv l0 f0 → ∃ f, Steps f0 hs f ∧ Inv l f := by
    intro l0 hs l f0 hh
    induction hh generalizing f0 with
    | nil => intro h; exact ⟨_, .nil, h⟩
    | cons hc e _ ih =>
      intro h
      obtain ⟨l1, r1, f1, e1, s1, h1⟩ := setName_step h hc
      rw [e] at e1
      cases e1
      obtain ⟨f, s, hf⟩ := ih h1
      exact ⟨f, .cons s1 s, hf⟩
  obtain ⟨f, s, h⟩ := key hh Inv.create
  refine ⟨f, s, ?_, ?_, ?_, ?_⟩
  · intro t
    unfold getName
    split
    · rename_i hp
      cases e : f t with
      | none => rfl
      | some m => exact absurd (h.pow e).1 (isPow_false.mp hp)
    · exact h.name t
  · intro t m n e1 e2
    have hn : n ≠ [] := by
      rintro rfl
      exact (h.pow e1).2 (low_nil e2)
    unfold getTag
    rw [if_neg hn, (h.tag n t).mpr ⟨m, e1, e2⟩]
    rfl
  · intro n hno
    unfold getTag
    split
    · rfl
    · cases e : aget (nmeq true) l.toTag n with
      | none => rfl
      | some t =>
        obtain ⟨m, e1, e2⟩ := (h.tag n t).mp e
        exact absurd e2 (hno t m e1)
  · intro t u m n e1 e2 e3
    have c1 := (h.tag n t).mpr ⟨m, e1, e3⟩
    have c2 := (h.tag n u).mpr ⟨n, e2, rfl⟩
    rw [c1] at c2
    exact Option.some.inj c2

/-- No such call reads freed memory. -/
theorem names_total {hs : List (Nat × Bytes × Res)} {l : Log} (hh : Hist create hs l) {t : Nat} {n : Bytes}
    (hc : n = [] → getName l t = none) : setName l t n ≠ none := by
  have key : ∀ {l0 : Log} {hs l f0}, Hist l0 hs l → Inv l0 f0 → ∃ f, Inv l f := by
    intro l0 hs l f0 hh
    induction hh generalizing f0 with
    | nil => intro h; exact ⟨_, h⟩
    | cons hc e _ ih =>
      intro h
      obtain ⟨l1, r1, f1, e1, s1, h1⟩ := setName_step h hc
      rw [e] at e1
      cases e1
      exact ih h1
  obtain ⟨f, h⟩ := key hh Inv.create
  obtain ⟨l', r, f', e, _⟩ := setName_step h hc
  rw [e]
  simp

/-- Clearing the name of a tag that has one always reads freed memory. -/
theorem clear_fails {hs : List (Nat × Bytes × Res)} {l : Log} (hh : Hist create hs l) {t : Nat} (h : getName l t ≠ none) :
    setName l t [] = none := by
  obtain ⟨f, s, hn, h1, h2, h3⟩ := names_partial hh
  have hp : ¬ Bithacks.isPow64 t = false := by
    intro hp
    unfold getName at h
    rw [if_pos hp] at h
    exact h rfl
  have hinv : ∃ f, Inv l f := by
    have key : ∀ {l0 : Log} {hs l f0}, Hist l0 hs l → Inv l0 f0 → ∃ f, Inv l f := by
      intro l0 hs l f0 hh
      induction hh generalizing f0 with
      | nil => intro h; exact ⟨_, h⟩
      | cons hc e _ ih =>
        intro h
        obtain ⟨l1, r1, f1, e1, s1, h1⟩ := setName_step h hc
        rw [e] at e1
        cases e1
        exact ih h1
    exact key hh Inv.create
  obtain ⟨g, hg⟩ := hinv
  have hnone : aget (nmeq true) l.toTag [] = none := by
    cases e : aget (nmeq true) l.toTag [] with
    | none => rfl
    | some u =>
      obtain ⟨m, e1, e2⟩ := (hg.tag [] u).mp e
      exact absurd (low_nil e2) (hg.pow e1).2
  unfold getName at h
  rw [if_neg hp] at h
  obtain ⟨o, ho⟩ := Option.ne_none_iff_exists'.mp h
  unfold setName
  rw [if_neg hp, hnone, ho]
  rfl

theorem setName_width {l l' : Log} {f : Nat → Option Bytes} (h : Inv l f) {t : Nat} {n : Bytes} {r : Res}
    (e : setName l t n = some (l', r)) : (r = .ok → l'.width = max l.width n.length) ∧ (r ≠ .ok → l' = l) := by
  unfold setName at e
  split at e
  · cases e
    exact ⟨nofun, fun _ => rfl⟩
  · by_cases hd : ∃ u, aget (nmeq true) l.toTag n = some u ∧ u ≠ t
    · obtain ⟨u, eu, hu⟩ := hd
      rw [if_pos (by rw [eu]; simpa using hu)] at e
      cases e
      exact ⟨nofun, fun _ => rfl⟩
    · rw [if_neg (by
        intro hm
        split at hm
        · rename_i o e
          exact hd ⟨o, e, by simpa using hm⟩
        · cases hm)] at e
      dsimp only at e
      by_cases hn : n = []
      · rw [if_pos hn] at e
        split at e
        · cases e
        · cases e
          refine ⟨fun _ => ?_, fun h => absurd rfl h⟩
          rw [hn]
          dsimp only [List.length_nil]
          split
          · have h0 : l.toName = [] := by
              refine (aget_all_none ideq_eqv _).mp fun u => ?_
              rw [h.name]
              cases e : f u with
              | none => rfl
              | some m =>
                have := h.width e
                exact absurd (List.length_eq_zero_iff.mp (by omega)) (h.pow e).2
            rw [h0]
            simp [adel, longest]
            omega
          · omega
      · rw [if_neg hn] at e
        cases e
        refine ⟨fun _ => ?_, fun h => absurd rfl h⟩
        dsimp only
        split <;> omega

/-- With padding every name takes as much room as the longest one given to any tag so far. -/
theorem names_padded {hs : List (Nat × Bytes × Res)} {l : Log} (hh : Hist create hs l) :
    ∃ w, (∀ t n, (t, n, Res.ok) ∈ hs → n.length ≤ w) ∧ (w = 0 ∨ ∃ t n, (t, n, Res.ok) ∈ hs ∧ n.length = w) ∧
      ∀ t m, getName l t = some m → tagPart l true t = [32, 91] ++ m ++ [93] ++ List.replicate (w - m.length) 32 := by
  have key : ∀ {l0 : Log} {hs l f0}, Hist l0 hs l → Inv l0 f0 → (∃ f, Inv l f) ∧ l0.width ≤ l.width ∧
      (∀ t n, (t, n, Res.ok) ∈ hs → n.length ≤ l.width) ∧ (l.width = l0.width ∨ ∃ t n, (t, n, Res.ok) ∈ hs ∧ n.length = l.width) := by
    intro l0 hs l f0 hh
    induction hh generalizing f0 with
    | nil => intro h; exact ⟨⟨_, h⟩, Nat.le_refl _, fun t n h => (nomatch h), .inl rfl⟩
    | @cons l0 t n r l1 hs l hc e _ ih =>
      intro h
      obtain ⟨l2, r2, f2, e2, s2, h2⟩ := setName_step h hc
      rw [e] at e2
      cases e2
      obtain ⟨w1, w2⟩ := setName_width h e
      obtain ⟨a, b, c, d⟩ := ih h2
      by_cases hr : r = .ok
      · have w := w1 hr
        subst hr
        refine ⟨a, by omega, ?_, ?_⟩
        · intro t' n' hm
          rcases List.mem_cons.mp hm with hm | hm
          · cases hm
            omega
          · exact c t' n' hm
        · rcases d with d | ⟨t', n', d1, d2⟩
          · by_cases hw : l0.width < n.length
            · exact .inr ⟨t, n, by simp, by omega⟩
            · exact .inl (by omega)
          · exact .inr ⟨t', n', List.mem_cons_of_mem _ d1, d2⟩
      · have w := w2 hr
        subst w
        refine ⟨a, b, ?_, ?_⟩
        · intro t' n' hm
          rcases List.mem_cons.mp hm with hm | hm
          · cases hm
            exact absurd rfl hr
          · exact c t' n' hm
        · rcases d with d | ⟨t', n', d1, d2⟩
          · exact .inl d
          · exact .inr ⟨t', n', List.mem_cons_of_mem _ d1, d2⟩
  obtain ⟨⟨f, h⟩, _, c, d⟩ := key hh Inv.create
  refine ⟨l.width, c, d, ?_⟩
  intro t m e
  have e : aget ideq l.toName t = some m := by
    unfold getName at e
    split at e
    · cases e
    · exact e
  have ef := e
  rw [h.name] at ef
  have hm := (h.pow ef).2
  have hw := h.width ef
  unfold tagPart
  rw [e]
  have h0 : 0 < m.length := List.length_pos_iff.mpr hm
  simp only [Option.getD_some]
  rw [if_pos h0]
  by_cases hlt : m.length < l.width
  · simp [hlt]
  · have : l.width - m.length = 0 := by omega
    simp [hlt, this]

-- the names `aaaaa` and then `b` for the same tag: ` [b]` and four blanks
example : (((setName create 1 [97, 97, 97, 97, 97]).bind fun x => setName x.1 1 [98]).map fun x => tagPart x.1 true 1) =
    some [32, 91, 98, 93, 32, 32, 32, 32] := by decide +kernel

/-- A history: two tags, a name that is taken, a number that is no tag, and another name for the first tag. -/
example : ∃ l, Hist create [(1, [97], .ok), (2, [98], .ok), (2, [65], .dup), (3, [99], .badTag), (1, [99], .ok)] l ∧
    getName l 1 = some [99] ∧ getTag l [66] = 2 ∧ getTag l [97] = 0 := by
  have h : ∀ l t n r l', (n = [] → getName l t = none) → setName l t n = some (l', r) → ∀ hs l'', Hist l' hs l'' →
    Hist l ((t, n, r) :: hs) l'' := fun _ _ _ _ _ h1 h2 _ _ h4 => .cons h1 h2 h4
  exact ⟨⟨[(1, [99]), (2, [98])], [([98], 2), ([99], 1)], 1⟩, h _ 1 [97] .ok ⟨[(1, [97])], [([97], 1)], 1⟩ (by simp) (by decide +kernel) _ _
    (h _ 2 [98] .ok ⟨[(1, [97]), (2, [98])], [([97], 1), ([98], 2)], 1⟩ (by simp) (by decide +kernel) _ _
    (h _ 2 [65] .dup ⟨[(1, [97]), (2, [98])], [([97], 1), ([98], 2)], 1⟩ (by simp) (by decide +kernel) _ _
    (h _ 3 [99] .badTag ⟨[(1, [97]), (2, [98])], [([97], 1), ([98], 2)], 1⟩ (by simp) (by decide +kernel) _ _
    (h _ 1 [99] .ok ⟨[(1, [99]), (2, [98])], [([98], 2), ([99], 1)], 1⟩ (by simp) (by decide +kernel) _ _ .nil)))),
    by decide +kernel, by decide +kernel, by decide +kernel⟩

/-! ## Lines -/

/-- A line end. -/
def End (c : UInt8) : Prop := c = 13 ∨ c = 10

/-- The lines of a message: line ends that follow each other count as one, and one at the end does not count. -/
inductive Lines : Bytes → List Bytes → Prop
  | nil : Lines [] []
  | last {l : Bytes} : l ≠ [] → (∀ c ∈ l, ¬ End c) → Lines l [l]
  | cons {l e r : Bytes} {ls : List Bytes} : (∀ c ∈ l, ¬ End c) → e ≠ [] → (∀ c ∈ e, End c) → (∀ c, r.head? = some c → ¬ End c) → Lines r ls →
      Lines (l ++ e ++ r) (l :: ls)

theorem mem_takeWhile {p : UInt8 → Bool} {c : UInt8} : ∀ {l : Bytes}, c ∈ l.takeWhile p → p c = true
  | [], h => by simp at h
  | x :: l, h => by
    rw [List.takeWhile_cons] at h
    split at h
    · rcases List.mem_cons.mp h with rfl | h
      · assumption
      · exact mem_takeWhile h
    · simp at h

theorem isEnd_iff (c : UInt8) : isEnd c = true ↔ End c := by simp [isEnd, End]

theorem linesGo_spec : ∀ (n : Nat) (msg : Bytes), msg.length ≤ n → Lines msg (linesGo n msg)
  | 0, msg, h => by
    have : msg = [] := List.length_eq_zero_iff.mp (by omega)
    subst this
    exact .nil
  | n + 1, msg, h => by
    rw [linesGo]
    split
    · rename_i e
      rw [e]
      exact .nil
    · rename_i h0
      have hl : ∀ c ∈ msg.takeWhile (fun c => !isEnd c), ¬ End c := by
        intro c hc e
        have := mem_takeWhile hc
        rw [(isEnd_iff c).mpr e] at this
        cases this
      have e1 : msg.takeWhile (fun c => !isEnd c) ++ msg.dropWhile (fun c => !isEnd c) = msg := List.takeWhile_append_dropWhile
      cases hd : msg.dropWhile (fun c => !isEnd c) with
      | nil =>
        rw [hd, List.append_nil] at e1
        rw [e1] at hl ⊢
        have : linesGo n (([] : Bytes).dropWhile isEnd) = [] := by cases n <;> simp [linesGo]
        rw [this]
        exact .last h0 hl
      | cons c r =>
        have hc : isEnd c = true := by
          have := List.head?_dropWhile_not (fun c => !isEnd c) msg
          rw [hd] at this
          simpa using this
        have e2 : (c :: r).takeWhile isEnd ++ (c :: r).dropWhile isEnd = c :: r := List.takeWhile_append_dropWhile
        have hlen : ((c :: r).dropWhile isEnd).length ≤ n := by
          have c1 : (msg.dropWhile fun c => !isEnd c).length ≤ msg.length := (List.dropWhile_sublist _).length_le
          rw [hd, List.length_cons] at c1
          rw [List.dropWhile_cons, if_pos hc]
          have := (List.dropWhile_sublist isEnd (l := r)).length_le
          omega
        have ih := linesGo_spec n _ hlen
        have := Lines.cons (l := msg.takeWhile fun c => !isEnd c) (e := (c :: r).takeWhile isEnd) (r := (c :: r).dropWhile isEnd) hl
          (by rw [List.takeWhile_cons, if_pos hc]; simp)
          (fun x hx => (isEnd_iff x).mp (mem_takeWhile hx))
          (fun x hx e => by
            have := List.head?_dropWhile_not isEnd (c :: r)
            rw [hx] at this
            have this : isEnd x = false := this
            rw [(isEnd_iff x).mpr e] at this
            cases this) ih
        rwa [List.append_assoc, e2, ← hd, e1, hd] at this

/-- A message is taken apart into its lines. -/
theorem lines_correct (msg : Bytes) : Lines msg (lines msg) := linesGo_spec _ _ (Nat.le_refl _)

-- `\na\r\n\nb\n`
example : lines [10, 97, 13, 10, 10, 98, 10] = [[], [97], [98]] := by decide +kernel

/-! ## Writing -/

/-- What a module gets of some lines. -/
def Mod.after (m : Mod) (k : Nat) (bs : List Bytes) : Mod :=
  if m.tags.testBit k ∧ m.alive ∧ m.accepts then { m with got := m.got ++ bs } else m

theorem and_pow (x k : Nat) : x &&& 2 ^ k = 0 ↔ x.testBit k = false := by
  constructor
  · intro h
    have := congrArg (Nat.testBit · k) h
    simpa [Nat.testBit_and, Nat.testBit_two_pow_self] using this
  · intro h
    refine Nat.eq_of_testBit_eq fun i => ?_
    rw [Nat.testBit_and, Nat.testBit_two_pow, Nat.zero_testBit]
    by_cases e : k = i
    · subst e; rw [h]; rfl
    · simp [e]

theorem passOn_eq (k : Nat) (b : Bytes) : ∀ ms : List Mod,
    passOn (2 ^ k) b ms = (ms.map (·.after k [b]), ms.any fun m => m.tags.testBit k && !m.alive)
  | [] => rfl
  | m :: ms => by
    rw [passOn, passOn_eq k b ms]
    simp only [and_pow, List.map_cons, List.any_cons]
    unfold Mod.after
    cases m.tags.testBit k <;> cases m.alive <;> cases m.accepts <;> simp

theorem passLines_eq (k : Nat) : ∀ (bs : List Bytes) (ms : List Mod) (x : Bool),
    passLines (2 ^ k) bs (ms, x) =
      (ms.map (·.after k bs), x || (bs ≠ [] && ms.any fun m => m.tags.testBit k && !m.alive))
  | [], ms, x => by
    have : ∀ m : Mod, m.after k [] = m := by
      intro m
      unfold Mod.after
      split <;> simp
    simp [passLines, this]
  | b :: bs, ms, x => by
    rw [passLines, passOn_eq]
    dsimp only
    rw [passLines_eq k bs]
    have h1 : ∀ m : Mod, (m.after k [b]).after k bs = m.after k (b :: bs) := by
      intro m
      unfold Mod.after
      by_cases h : m.tags.testBit k ∧ m.alive ∧ m.accepts
      · simp [h]
      · simp only [h, if_false]
    have h2 : ∀ (c : List Bytes) (m : Mod), (m.after k c).tags = m.tags ∧ (m.after k c).alive = m.alive := by
      intro c m
      unfold Mod.after
      split <;> exact ⟨rfl, rfl⟩
    have h3 : ((ms.map (·.after k [b])).any fun m => m.tags.testBit k && !m.alive) = ms.any fun m => m.tags.testBit k && !m.alive := by
      rw [List.any_map]
      congr 1
      funext m
      simp [h2]
    rw [h3, List.map_map]
    refine Prod.ext ?_ ?_
    · refine List.map_congr_left fun m _ => ?_
      exact h1 m
    · dsimp only
      cases x <;> cases (ms.any fun m => m.tags.testBit k && !m.alive) <;> simp

/-- A message with a tag: every module that accepts the tag, has not expired, and whose filter agrees gets every line of the message once,
in order, and no other module gets anything.  If a module that accepts the tag has expired, and the message has a line, then all modules
that have expired are gone afterwards; otherwise all modules are still there. -/
theorem write_correct (l : Log) (pad : Bool) (time pre ending : Bytes) (k : Nat) (msg : Bytes) (ms : List Mod) :
    ∃ ls, Lines msg ls ∧ write l pad time pre ending (2 ^ k) msg ms =
      (((if msg ≠ [] ∧ ∃ m ∈ ms, m.tags.testBit k ∧ m.alive = false then ms.filter (·.alive) else ms).map
        (·.after k (ls.map fun x => trimEnd (time ++ tagPart l pad (2 ^ k) ++ pre ++ x) ++ ending))), .ok) := by
  refine ⟨lines msg, lines_correct msg, ?_⟩
  have hp : ¬ Bithacks.isPow64 (2 ^ k) = false := fun h => isPow_false.mp h ⟨k, rfl⟩
  have hnil : (lines msg = [] ↔ msg = []) := by
    constructor
    · intro e
      have := lines_correct msg
      rw [e] at this
      cases this
      rfl
    · intro e; rw [e]; rfl
  unfold write
  rw [if_neg hp]
  generalize hb : (lines msg).map (fmt l pad time pre ending (2 ^ k)) = bs
  have hbs : bs = (lines msg).map fun x => trimEnd (time ++ tagPart l pad (2 ^ k) ++ pre ++ x) ++ ending := hb.symm
  have hbn : bs ≠ [] ↔ msg ≠ [] := by
    rw [← hb]
    simp [hnil]
  rw [← hbs]
  by_cases hu : tagUsed ms (2 ^ k) = false
  · rw [if_pos hu]
    have hno : ∀ m ∈ ms, m.tags.testBit k = false := by
      intro m hm
      unfold tagUsed at hu
      rw [List.any_eq_false] at hu
      have := hu m hm
      rw [← and_pow]
      simpa using this
    rw [if_neg (by
      rintro ⟨_, m, hm, h, _⟩
      rw [hno m hm] at h
      cases h)]
    congr 1
    refine (List.map_id' ms).symm.trans (List.map_congr_left fun m hm => ?_)
    unfold Mod.after
    rw [if_neg (by
      rintro ⟨h, _⟩
      rw [hno m hm] at h
      cases h)]
  · rw [if_neg hu, passLines_eq]
    dsimp only
    congr 1
    by_cases hx : msg ≠ [] ∧ ∃ m ∈ ms, m.tags.testBit k ∧ m.alive = false
    · rw [if_pos hx, if_pos]
      · rw [List.filter_map]
        congr 1
        refine List.filter_congr fun m _ => ?_
        show (m.after k bs).alive = m.alive
        unfold Mod.after
        split <;> rfl
      · obtain ⟨h1, m, hm, h2, h3⟩ := hx
        simp only [Bool.false_or, Bool.and_eq_true, List.any_eq_true]
        exact ⟨by simpa using hbn.mpr h1, m, hm, h2, by simp [h3]⟩
    · rw [if_neg hx, if_neg]
      intro h
      simp only [Bool.false_or, Bool.and_eq_true, List.any_eq_true] at h
      obtain ⟨h1, m, hm, h2, h3⟩ := h
      exact hx ⟨hbn.mp (by simpa using h1), m, hm, h2, by simpa using h3⟩

/-- Trimming takes away white space at the end, and all of it. -/
theorem trim_correct (b : Bytes) :
    (∃ ws, b = trimEnd b ++ ws ∧ ∀ c ∈ ws, Chr.isSpace c = true) ∧ ∀ c ∈ (trimEnd b).getLast?, Chr.isSpace c = false := by
  constructor
  · refine ⟨(b.reverse.takeWhile Chr.isSpace).reverse, ?_, ?_⟩
    · unfold trimEnd
      rw [← List.reverse_append, List.takeWhile_append_dropWhile, List.reverse_reverse]
    · intro c hc
      have h := List.all_takeWhile (p := Chr.isSpace) (l := b.reverse)
      rw [List.all_eq_true] at h
      exact h c (List.mem_reverse.mp hc)
  · intro c hc
    unfold trimEnd at hc
    rw [List.getLast?_reverse] at hc
    have h := List.head?_dropWhile_not Chr.isSpace b.reverse
    rw [Option.mem_def.mp hc] at h
    simpa using h

example : trimEnd [32, 97, 32, 98, 9, 32] = [32, 97, 32, 98] := by decide +kernel

/-- A number that is no tag is refused and nothing is written. -/
theorem write_refused (l : Log) (pad : Bool) (time pre ending : Bytes) {tag : Nat} (h : ¬ ∃ k, tag = 2 ^ k) (msg : Bytes) (ms : List Mod) :
    write l pad time pre ending tag msg ms = (ms, .badTag) := by
  unfold write
  rw [if_pos (isPow_false.mpr h)]

-- `a \nb` with tag 2 to three modules, the second of which does not accept it and the third of which has expired
example : write create false [84] [58, 32] [10] 2 [97, 32, 10, 98] [⟨3, true, true, []⟩, ⟨1, true, true, []⟩, ⟨2, false, true, []⟩] =
    ([⟨3, true, true, [[84, 58, 32, 97, 10], [84, 58, 32, 98, 10]]⟩, ⟨1, true, true, []⟩], .ok) := by decide +kernel

/-! ## Messages kept in memory -/

/-- What is kept of any messages: all of them up to the one that takes it over the size, whole and in order, and none after that. -/
theorem mem_correct (size s : Nat) (msgs : List Bytes) : ∃ k, k ≤ msgs.length ∧
    (msgs.foldl memWrite (addMem size s)).buf = (msgs.take k).flatten ∧
    (k = msgs.length ∨ (msgs.take k).flatten.length > size) ∧ ∀ j, j < k → (msgs.take j).flatten.length ≤ size := by
  have hmax : ∀ (ms : List Bytes) (m : Mem), (ms.foldl memWrite m).max = m.max := by
    intro ms
    induction ms with
    | nil => intro m; rfl
    | cons x ms ih =>
      intro m
      rw [List.foldl_cons, ih]
      unfold memWrite
      split
      · rfl
      · split <;> rfl
  have key : ∀ (ms : List Bytes) (m : Mem), ∃ k, k ≤ ms.length ∧ (ms.foldl memWrite m).buf = m.buf ++ (ms.take k).flatten ∧
      (k = ms.length ∨ (m.buf ++ (ms.take k).flatten).length > m.max) ∧ ∀ j, j < k → (m.buf ++ (ms.take j).flatten).length ≤ m.max := by
    intro ms
    induction ms with
    | nil => intro m; exact ⟨0, Nat.le_refl _, by simp, .inl rfl, fun j h => by omega⟩
    | cons x ms ih =>
      intro m
      by_cases hf : m.buf.length > m.max
      · refine ⟨0, by simp, ?_, .inr (by simpa using hf), fun j h => by omega⟩
        have : ∀ (ms : List Bytes), ms.foldl memWrite m = m := by
          intro ms
          induction ms with
          | nil => rfl
          | cons y ms ih2 =>
            rw [List.foldl_cons]
            have : memWrite m y = m := by
              unfold memWrite
              split
              · rfl
              · first | rfl | rw [if_pos hf]
            rw [this, ih2]
        rw [this]
        simp
      · have hw : memWrite m x = { m with buf := m.buf ++ x } := by
          unfold memWrite
          split
          · rename_i e
            rw [List.length_eq_zero_iff.mp e]
            simp
          · first | rfl | rw [if_neg hf]
        obtain ⟨k, a, b, c, d⟩ := ih { m with buf := m.buf ++ x }
        rw [← hw] at b
        refine ⟨k + 1, by rw [List.length_cons]; omega, ?_, ?_, ?_⟩
        · rw [List.foldl_cons, b, hw]
          simp
        · rcases c with c | c
          · exact .inl (by rw [List.length_cons, c])
          · right
            simpa using c
        · intro j hj
          cases j with
          | zero =>
            simp
            omega
          | succ j =>
            have := d j (by omega)
            simpa using this
  obtain ⟨k, a, b, c, d⟩ := key msgs (addMem size s)
  exact ⟨k, a, b, c, d⟩

/-- The buffer is never longer than the size and one message. -/
theorem mem_bound (size s : Nat) (msgs : List Bytes) {w : Nat} (h : ∀ m ∈ msgs, m.length ≤ w) :
    (msgs.foldl memWrite (addMem size s)).buf.length ≤ size + w := by
  obtain ⟨k, a, b, _, d⟩ := mem_correct size s msgs
  rw [b]
  cases k with
  | zero => simp
  | succ k =>
    rw [List.take_succ_eq_append_getElem (by omega)]
    have := d k (by omega)
    have := h (msgs[k]'(by omega)) (List.getElem_mem _)
    simp only [List.flatten_append, List.flatten_cons, List.flatten_nil, List.append_nil, List.length_append]
    omega

/-- A module lasts for its time in seconds, or, if that many milliseconds cannot be counted, for as long as they can. -/
theorem mem_expires (size s : Nat) (hs : s < 2 ^ 64) (msgs : List Bytes) {elapsed : Nat} :
    memCheck (msgs.foldl memWrite (addMem size s)) elapsed = true ↔ elapsed ≤ 1000 * min s 18446744073709551 := by
  have hms : ∀ (ms : List Bytes) (m : Mem), (ms.foldl memWrite m).ms = m.ms := by
    intro ms
    induction ms with
    | nil => intro m; rfl
    | cons x ms ih =>
      intro m
      rw [List.foldl_cons, ih]
      unfold memWrite
      split
      · rfl
      · split <;> rfl
  unfold memCheck
  rw [hms]
  unfold addMem
  dsimp only
  split <;> split <;> simp <;> omega

example : ([[97, 98], [99], [100, 101], [102]].foldl memWrite (addMem 3 1)).buf = [97, 98, 99, 100, 101] := by decide +kernel

end Verif.LogTags
