import Verif.Verify.Model
import Verif.Verify.Spec
import Verif.Str.SectProps
import Verif.Str.Props

/-!
# Lemmas about checking addresses
-/

namespace Verif.Verify
open Verif
open Verif.Str (join isEscaped explode bracketLoop quotedLoop toks section_ openEnd)

/-! ## Characters -/

theorem mem_alnum (c : UInt8) : c ∈ alnum ↔ Alnum c := by
  have : ∀ k : Fin 256, UInt8.ofNat k ∈ alnum ↔ ((48 ≤ UInt8.ofNat k ∧ UInt8.ofNat k ≤ 57) ∨ (65 ≤ UInt8.ofNat k ∧ UInt8.ofNat k ≤ 90) ∨
      (97 ≤ UInt8.ofNat k ∧ UInt8.ofNat k ≤ 122)) := by decide +kernel
  have h := this ⟨c.toNat, c.toNat_lt⟩
  simpa [Alnum] using h

theorem isCharset_iff (s : List UInt8) {set : List UInt8} (h : set ≠ []) : isCharset s set = true ↔ s ≠ [] ∧ ∀ c ∈ s, c ∈ set := by
  unfold isCharset
  have : set.isEmpty = false := by cases set <;> simp_all
  simp [this]

theorem not_name {c : UInt8} (h : c ∈ ([0, 10, 11, 12, 13, 34, 44, 46, 59, 60, 62, 64, 92] : List UInt8)) : ¬ NameChar c := by
  unfold NameChar
  rw [← mem_alnum]
  revert c
  decide +kernel

theorem not_quoted {c : UInt8} (h : c ∈ ([0, 10, 11, 12, 13, 34, 92] : List UInt8)) : ¬ QuotedChar c := by
  unfold QuotedChar NameChar
  rw [← mem_alnum]
  revert c
  decide +kernel

theorem alnum_not {c : UInt8} (h : c ∈ ([45, 46, 64] : List UInt8)) : ¬ Alnum c := by
  rw [← mem_alnum]
  revert c
  decide +kernel

/-! ## Labels and domains -/

theorem ends {s : List UInt8} (h : s ≠ []) : ∃ a z, s[0]? = some a ∧ s[s.length - 1]? = some z ∧ s.head? = some a ∧ s.getLast? = some z := by
  refine ⟨s.head h, s.getLast h, ?_, ?_, List.head?_eq_some_head h, List.getLast?_eq_some_getLast h⟩
  · rw [← List.head?_eq_getElem?]; exact List.head?_eq_some_head h
  · rw [← List.getLast?_eq_getElem?]; exact List.getLast?_eq_some_getLast h

theorem dnsLabel_iff (s : List UInt8) : ∃ b, dnsLabel s = some b ∧ (b = true ↔ Label s) := by
  unfold dnsLabel
  by_cases h : s.length = 0 ∨ s.length > 63
  · rw [if_pos h]
    refine ⟨false, rfl, by simp, fun l => ?_⟩
    rcases h with h | h
    · exact absurd (List.length_eq_zero_iff.mp h) l.ne
    · have := l.short; omega
  · rw [if_neg h]
    have hne : s ≠ [] := fun e => h (.inl (by simp [e]))
    obtain ⟨a, z, h1, h2, h3, h4⟩ := ends hne
    simp only [h1, h2, Option.bind_some]
    refine ⟨_, rfl, ?_⟩
    have hset : isCharset s inLabel = true ↔ ∀ c ∈ s, Alnum c ∨ c = 45 := by
      rw [isCharset_iff s (by simp [inLabel])]
      simp [hne, inLabel, mem_alnum]
    split
    · rename_i he
      refine ⟨by simp, fun l => ?_⟩
      rcases he with rfl | rfl
      · exact absurd h3 l.first
      · exact absurd h4 l.last
    · rename_i he
      rw [hset]
      refine ⟨fun hc => ⟨hc, hne, by omega, ?_, ?_⟩, fun l => l.chars⟩
      · rw [h3]; intro e; exact he (.inl (Option.some.inj e))
      · rw [h4]; intro e; exact he (.inr (Option.some.inj e))

theorem localPart_iff (s : List UInt8) : ∃ b, localPart s = some b ∧ (b = true ↔ Local s) := by
  unfold localPart
  by_cases h : s.length = 0 ∨ s.length > 64
  · rw [if_pos h]
    refine ⟨false, rfl, by simp, fun l => ?_⟩
    rcases h with h | h
    · exact absurd (List.length_eq_zero_iff.mp h) l.ne
    · have := l.short; omega
  · rw [if_neg h]
    have hne : s ≠ [] := fun e => h (.inl (by simp [e]))
    obtain ⟨a, z, h1, h2, h3, h4⟩ := ends hne
    simp only [h1, h2, Option.bind_some]
    refine ⟨_, rfl, ?_⟩
    have hset : isCharset s inLocal = true ↔
        ∀ c ∈ s, Alnum c ∨ c ∈ ([46, 39, 42, 43, 45, 61, 94, 95, 123, 125, 126] : List UInt8) := by
      rw [isCharset_iff s (by simp [inLocal])]
      simp only [hne, inLocal, List.mem_append, mem_alnum, ne_eq, not_false_eq_true, true_and]
    split
    · rename_i he
      refine ⟨by simp, fun l => ?_⟩
      rcases he with rfl | rfl
      · exact absurd h3 l.first
      · exact absurd h4 l.last
    · rename_i he
      split
      · rename_i h5
        subst h5
        exact ⟨by simp, fun l => absurd h3 l.hyphen⟩
      · rename_i h5
        rw [hset]
        refine ⟨fun hc => ⟨hc, hne, by omega, ?_, ?_, ?_⟩, fun l => l.chars⟩
        · rw [h3]; intro e; exact he (.inl (Option.some.inj e))
        · rw [h3]; intro e; exact h5 (Option.some.inj e)
        · rw [h4]; intro e; exact he (.inr (Option.some.inj e))

theorem labels_iff : ∀ ls : List (List UInt8), ∃ b, labels ls = some b ∧ (b = true ↔ ∀ l ∈ ls, Label l)
  | [] => ⟨true, rfl, by simp⟩
  | l :: ls => by
    obtain ⟨b, e, h⟩ := dnsLabel_iff l
    obtain ⟨b', e', h'⟩ := labels_iff ls
    rw [labels, e, Option.bind_some]
    cases b with
    | true =>
      have := h.mp rfl
      exact ⟨b', by simpa using e', by simp [h', this]⟩
    | false =>
      have : ¬ Label l := fun hl => by cases h.mpr hl
      exact ⟨false, rfl, by simp [this]⟩

theorem mem_join {d : UInt8} : ∀ {xs : List (List UInt8)} {c : UInt8}, c ∈ join [d] xs → c = d ∨ ∃ x ∈ xs, c ∈ x
  | [], _, h => by cases h
  | [x], c, h => .inr ⟨x, by simp, h⟩
  | x :: y :: xs, c, h => by
    rw [join, List.mem_append, List.mem_append, List.mem_singleton] at h
    rcases h with (h | h) | h
    · exact .inr ⟨x, by simp, h⟩
    · exact .inl h
    · rcases mem_join h with h | ⟨z, hz, h⟩
      · exact .inl h
      · exact .inr ⟨z, by simp [hz], h⟩

theorem join_ne {d : UInt8} {x : List UInt8} (xs : List (List UInt8)) (h : x ≠ []) : join [d] (x :: xs) ≠ [] := by
  cases xs with
  | nil => exact h
  | cons y ys => rw [join]; simp

theorem label_dot {l : List UInt8} (h : Label l) : 46 ∉ l := fun hm => by
  rcases h.chars _ hm with h | h
  · exact alnum_not (by simp) h
  · simp at h

theorem domain_iff (s : List UInt8) (h0 : 0 ∉ s) : ∃ b, domain s = some b ∧ (b = true ↔ Domain s) := by
  unfold domain
  by_cases h : s.isEmpty ∨ s.length > 253
  · rw [if_pos h]
    refine ⟨false, rfl, by simp, ?_⟩
    rintro ⟨h1, ls, h2, h3, h4⟩
    rcases h with h | h
    · cases ls with
      | nil => exact absurd rfl h2
      | cons l ls =>
        refine absurd (h4.symm.trans ?_) (join_ne ls (h3 l (by simp)).ne)
        simpa using h
    · omega
  · rw [if_neg h]
    have hne : s ≠ [] := fun e => h (.inl (by simp [e]))
    obtain ⟨xs, e, hd, hj, _⟩ := Str.explode_correct 46 s hne h0
    obtain ⟨b, e', hb⟩ := labels_iff xs
    rw [e, Option.bind_some]
    have hx : xs ≠ [] := by rintro rfl; exact hne hj.symm
    refine ⟨b, e', hb.trans ⟨fun hl => ⟨by omega, xs, hx, hl, hj.symm⟩, ?_⟩⟩
    rintro ⟨_, ls, h2, h3, h4⟩
    have := Str.parts_unique 46 xs ls hx h2 hd (fun l hl => label_dot (h3 l hl)) (hj.trans h4)
    rw [this]
    exact h3

theorem domain_chars {s : List UInt8} (h : Domain s) : ∀ c ∈ s, Alnum c ∨ c = 45 ∨ c = 46 := by
  intro c hc
  obtain ⟨_, ls, _, h3, rfl⟩ := h
  rcases mem_join hc with h | ⟨l, hl, h⟩
  · exact .inr (.inr h)
  · rcases (h3 l hl).chars c h with h | h
    · exact .inl h
    · exact .inr (.inl h)

theorem bare_iff (s : List UInt8) (h0 : 0 ∉ s) : ∃ b, bare s = some b ∧ (b = true ↔ Addr s) := by
  unfold bare
  by_cases hne : s = []
  · subst hne
    refine ⟨false, rfl, by simp, ?_⟩
    rintro ⟨l, d, _, _, e⟩
    simp at e
  · obtain ⟨xs, e, hd, hj, _⟩ := Str.explode_correct 64 s hne h0
    have hx : xs ≠ [] := by rintro rfl; exact hne hj.symm
    rw [e, Option.bind_some]
    have huniq : ∀ l d, Local l → Domain d → s = l ++ 64 :: d → xs = [l, d] := by
      intro l d hl hdm es
      refine Str.parts_unique 64 xs [l, d] hx (by simp) hd ?_ (by rw [hj, es]; simp [join])
      intro y hy hm
      rcases List.mem_cons.mp hy with rfl | hy
      · rcases hl.chars _ hm with h | h
        · exact alnum_not (by simp) h
        · revert h; decide
      · rw [List.mem_singleton.mp hy] at hm
        rcases domain_chars hdm _ hm with h | h | h
        · exact alnum_not (by simp) h
        · revert h; decide
        · revert h; decide
    by_cases hl : xs.length ≠ 2
    · rw [if_pos hl]
      refine ⟨false, rfl, by simp, ?_⟩
      rintro ⟨l, d, h1, h2, h3⟩
      rw [huniq l d h1 h2 h3] at hl
      simp at hl
    · rw [if_neg hl]
      match xs, hl with
      | [l, d], _ =>
        have es : s = l ++ 64 :: d := by rw [← hj]; simp [join]
        have hd0 : 0 ∉ d := fun h => h0 (by rw [es]; simp [h])
        obtain ⟨b1, e1, i1⟩ := localPart_iff l
        obtain ⟨b2, e2, i2⟩ := domain_iff d hd0
        show ∃ b, ((localPart l).bind fun b => if b then domain d else some false) = some b ∧ _
        rw [e1, Option.bind_some]
        have hiff : Addr s ↔ Local l ∧ Domain d := by
          constructor
          · rintro ⟨l', d', h1, h2, h3⟩
            have := huniq l' d' h1 h2 h3
            simp only [List.cons.injEq, and_true] at this
            rw [this.1, this.2]
            exact ⟨h1, h2⟩
          · rintro ⟨h1, h2⟩
            exact ⟨l, d, h1, h2, es⟩
        rw [hiff]
        cases b1 with
        | true => exact ⟨b2, by simpa using e2, by rw [i2]; exact ⟨fun h => ⟨i1.mp rfl, h⟩, fun h => h.2⟩⟩
        | false => exact ⟨false, rfl, by simp, fun h => i1.mpr h.1⟩
      | [], h => exact absurd rfl hx
      | [_], h => simp at h
      | _ :: _ :: _ :: _, h => simp at h

/-! ## Quotes -/

/-- The characters of a string, each with whether it is in quotes. -/
def flags : List UInt8 → List UInt8 → Bool → List (UInt8 × Bool)
  | [], _, _ => []
  | c :: s, rev, on =>
    (c, if c = 34 ∧ isEscaped 92 rev = false then !on else on) ::
      flags s (c :: rev) (if c = 34 ∧ isEscaped 92 rev = false then !on else on)

/-- Whether a quote is open at the end. -/
def fend : List UInt8 → List UInt8 → Bool → Bool
  | [], _, on => on
  | c :: s, rev, on => fend s (c :: rev) (if c = 34 ∧ isEscaped 92 rev = false then !on else on)

theorem flags_append (b : List UInt8) : ∀ (a rev : List UInt8) (on : Bool),
    flags (a ++ b) rev on = flags a rev on ++ flags b (a.reverse ++ rev) (fend a rev on)
  | [], _, _ => rfl
  | c :: a, rev, on => by
    rw [List.cons_append, flags, flags_append b a, flags, fend]
    simp

theorem fend_append (b : List UInt8) : ∀ (a rev : List UInt8) (on : Bool), fend (a ++ b) rev on = fend b (a.reverse ++ rev) (fend a rev on)
  | [], _, _ => rfl
  | c :: a, rev, on => by
    rw [List.cons_append, fend, fend_append b a, fend]
    simp

theorem countLoop_eq {ch : UInt8} (h : ch ≠ 34) : ∀ (s rev : List UInt8) (on : Bool) (n : Nat),
    countLoop ch 34 92 s rev on n = n + (flags s rev on).count (ch, false)
  | [], _, _, _ => rfl
  | c :: s, rev, on, n => by
    rw [countLoop, flags]
    by_cases h1 : c = 34 ∧ isEscaped 92 rev = false
    · rw [if_pos h1, if_pos h1, countLoop_eq h, List.count_cons_of_ne]
      intro e
      exact h (by rw [← h1.1]; exact (Prod.mk.inj e).1.symm)
    · rw [if_neg h1, if_neg h1]
      by_cases h2 : c = ch ∧ on = false
      · rw [if_pos h2, countLoop_eq h, h2.1, h2.2, List.count_cons_self]
        omega
      · rw [if_neg h2, countLoop_eq h, List.count_cons_of_ne]
        intro e
        exact h2 ⟨(Prod.mk.inj e).1, (Prod.mk.inj e).2⟩

theorem count_eq {ch : UInt8} (h : ch ≠ 34) (s : List UInt8) : countQuoted s ch = (flags s [] false).count (ch, false) := by
  rw [countQuoted, countLoop_eq h]; omega

theorem bracketLoop_end (keep : Bool) : ∀ (s rev : List UInt8) (on : Bool) (n : Nat) (dst : List UInt8) (r : Bool × Nat × List UInt8),
    bracketLoop keep 60 62 34 92 s rev on n dst = some r → r.1 = fend s rev on
  | [], _, on, n, dst, r, h => by rw [bracketLoop] at h; cases h; rfl
  | x :: s, rev, on, n, dst, r, h => by
    rw [bracketLoop] at h
    rw [fend]
    dsimp only at h
    generalize (if x = 34 ∧ isEscaped 92 rev = false then !on else on) = on' at h ⊢
    split at h
    · split at h
      · cases h
      · exact bracketLoop_end keep s _ _ _ _ r h
    · generalize (if x = 60 ∧ on' = false then n + 1 else n) = m at h
      split at h
      · cases h
      · exact bracketLoop_end keep s _ _ _ _ r h

/-- Text without brackets outside of quotes. -/
theorem bracket_free (keep : Bool) (rest : List UInt8) : ∀ (a rev : List UInt8) (on : Bool) (n : Nat) (dst : List UInt8),
    (60, false) ∉ flags a rev on → (62, false) ∉ flags a rev on →
    bracketLoop keep 60 62 34 92 (a ++ rest) rev on n dst =
      bracketLoop keep 60 62 34 92 rest (a.reverse ++ rev) (fend a rev on) n (dst ++ if keep = decide (n > 0) then a else [])
  | [], rev, on, n, dst, _, _ => by simp [fend]
  | x :: a, rev, on, n, dst, h1, h2 => by
    rw [flags, List.mem_cons, not_or] at h1 h2
    rw [List.cons_append, bracketLoop, fend]
    dsimp only
    generalize hon : (if x = 34 ∧ isEscaped 92 rev = false then !on else on) = on' at h1 h2 ⊢
    have n1 : ¬ (x = 60 ∧ on' = false) := fun h => h1.1 (by rw [h.1, h.2])
    have n2 : ¬ (x = 62 ∧ on' = false) := fun h => h2.1 (by rw [h.1, h.2])
    have n3 : ¬ (x = 62 ∧ on' = false ∧ n = 0) := fun h => n2 ⟨h.1, h.2.1⟩
    simp only [if_neg n1, if_neg n2, if_neg n3]
    have ih := fun dst => bracket_free keep rest a (x :: rev) on' n dst h1.2 h2.2
    cases keep with
    | true =>
      rw [if_pos rfl, ih]
      by_cases hn : n > 0 <;> simp [hn]
    | false =>
      rw [if_neg (by decide), ih]
      by_cases hn : n = 0
      · simp [hn]
      · have : n > 0 := by omega
        simp [hn, this]

/-- A string with one pair of brackets, the second at the end. -/
structure Shape (a b : List UInt8) : Prop where
  a1 : (60, false) ∉ flags a [] false
  a2 : (62, false) ∉ flags a [] false
  a3 : fend a [] false = false
  b1 : (60, false) ∉ flags b (60 :: a.reverse) false
  b2 : (62, false) ∉ flags b (60 :: a.reverse) false
  b3 : fend b (60 :: a.reverse) false = false

theorem Shape.flags {a b : List UInt8} (h : Shape a b) : flags (a ++ 60 :: (b ++ [62])) [] false =
    flags a [] false ++ (60, false) :: (flags b (60 :: a.reverse) false ++ [(62, false)]) := by
  rw [flags_append, h.a3, Verify.flags, if_neg (by simp), List.append_nil, flags_append, h.b3]
  simp [Verify.flags]

theorem Shape.count {a b : List UInt8} (h : Shape a b) :
    countQuoted (a ++ 60 :: (b ++ [62])) 60 = 1 ∧ countQuoted (a ++ 60 :: (b ++ [62])) 62 = 1 := by
  rw [count_eq (by decide), count_eq (by decide), h.flags]
  simp [List.count_eq_zero.mpr h.a1, List.count_eq_zero.mpr h.a2, List.count_eq_zero.mpr h.b1, List.count_eq_zero.mpr h.b2]

theorem Shape.bracketed {a b : List UInt8} (h : Shape a b) :
    Str.bracketed false (a ++ 60 :: (b ++ [62])) 60 62 34 92 = some a ∧
      Str.bracketed true (a ++ 60 :: (b ++ [62])) 60 62 34 92 = some b := by
  unfold Str.bracketed
  rw [if_neg (by simp), if_neg (by simp)]
  rw [bracket_free false _ a [] false 0 [] h.a1 h.a2, bracket_free true _ a [] false 0 [] h.a1 h.a2, h.a3, List.append_nil]
  constructor
  · rw [bracketLoop]
    simp only [Bool.false_eq_true, if_false, true_and, if_true]
    rw [if_neg (by simp)]
    rw [if_neg (by simp), bracket_free false _ b _ false _ _ h.b1 h.b2, h.b3]
    simp [bracketLoop]
  · rw [bracketLoop]
    simp only [if_true, true_and]
    rw [if_neg (by simp), if_neg (by simp)]
    rw [bracket_free true _ b _ false _ _ h.b1 h.b2, h.b3]
    simp [bracketLoop]

theorem flags_find {o : UInt8} (ho : o ≠ 34) : ∀ (s rev : List UInt8) (on : Bool), (o, false) ∈ flags s rev on →
    ∃ a b, s = a ++ o :: b ∧ fend a rev on = false ∧ (o, false) ∉ flags a rev on
  | [], _, _, h => by cases h
  | c :: s, rev, on, h => by
    rw [flags] at h
    by_cases hc : (o, false) = (c, if c = 34 ∧ isEscaped 92 rev = false then !on else on)
    · obtain ⟨e1, e2⟩ := Prod.mk.inj hc
      subst e1
      rw [if_neg (fun h => ho h.1)] at e2
      exact ⟨[], s, rfl, e2.symm, by simp [flags]⟩
    · obtain ⟨a, b, e, h1, h2⟩ := flags_find ho s _ _ ((List.mem_cons.mp h).resolve_left hc)
      exact ⟨c :: a, b, by rw [e]; rfl, h1, by rw [flags, List.mem_cons, not_or]; exact ⟨hc, h2⟩⟩

/-- A string with one opening and one closing bracket outside of quotes, the last character being a closing bracket and no quote
being open. -/
theorem shape_of {s : List UInt8} (h1 : countQuoted s 60 = 1) (h2 : countQuoted s 62 = 1) (hl : s.getLast? = some 62)
    (he : fend s [] false = false) : ∃ a b, s = a ++ 60 :: (b ++ [62]) ∧ Shape a b := by
  obtain ⟨s', rfl⟩ := List.getLast?_eq_some_iff.mp hl
  rw [count_eq (by decide)] at h1 h2
  rw [fend_append, fend, if_neg (by simp), fend] at he
  rw [flags_append, flags, if_neg (by simp), flags, he, List.count_append] at h1 h2
  simp only [List.count_cons_self, List.count_nil] at h2
  rw [List.count_cons_of_ne (by decide), List.count_nil] at h1
  have h2 : (62, false) ∉ flags s' [] false := List.count_eq_zero.mp (by omega)
  have hm : (60, false) ∈ flags s' [] false := List.count_pos_iff.mp (by omega)
  obtain ⟨a, b, rfl, f1, f2⟩ := flags_find (by decide) s' [] false hm
  rw [flags_append, f1, flags, if_neg (by simp), List.append_nil] at h1 h2
  rw [fend_append, f1, fend, if_neg (by simp), List.append_nil] at he
  rw [List.count_append, List.count_cons_self] at h1
  rw [List.mem_append, not_or, List.mem_cons, not_or] at h2
  exact ⟨a, b, by simp, f2, h2.1, f1, List.count_eq_zero.mp (by omega), h2.2.2, he⟩

/-! ## Display names -/

theorem quotedLoop_end (keep : Bool) : ∀ (s rev : List UInt8) (on : Bool) (dst : List UInt8) (r : Bool × List UInt8),
    quotedLoop keep 34 92 s rev on dst = some r → r.1 = fend s rev on
  | [], _, _, _, r, h => by rw [quotedLoop] at h; cases h; rfl
  | c :: s, rev, on, dst, r, h => by
    rw [quotedLoop] at h
    rw [fend]
    by_cases h1 : c = 34 ∧ isEscaped 92 rev = false
    · rw [if_pos h1] at h ⊢
      exact quotedLoop_end keep s _ _ _ r h
    · rw [if_neg h1] at h ⊢
      split at h
      · split at h
        · split at h
          · cases h
          · exact quotedLoop_end keep s _ _ _ r h
        · exact quotedLoop_end keep s _ _ _ r h
      · exact quotedLoop_end keep s _ _ _ r h

theorem openEnd_fend (s : List UInt8) : openEnd false (toks 34 92 s) = fend s [] false :=
  quotedLoop_end true s [] false [] _ (Str.quoted_loop true 34 92 (by decide) s [] false [] rfl)

/-- The characters allowed in quotes or outside. -/
def Fine : Bool → UInt8 → Prop
  | true, c => QuotedChar c
  | false, c => NameChar c

theorem toks_cons {c : UInt8} (h : c ≠ 92) (s : List UInt8) :
    toks 34 92 (c :: s) = (if c = 34 then .quote else .plain c) :: toks 34 92 s := by
  cases s with
  | nil => simp only [toks, if_neg h]; split <;> rfl
  | cons x r => rw [toks, if_neg h]

theorem not_fine {keep : Bool} {c : UInt8} (h : c = 34 ∨ c = 92) : ¬ Fine keep c := by
  cases keep with
  | true => exact not_quoted (by rcases h with rfl | rfl <;> decide)
  | false => exact not_name (by rcases h with rfl | rfl <;> decide)

/-- The rest of a display name in quotes or outside. -/
def Rest : Bool → List UInt8 → Prop
  | true, s => ∃ cs r, s = cs ++ 34 :: r ∧ (∀ c ∈ cs, QuotedChar c) ∧ Disp r
  | false, s => Disp s

theorem rest_of (s : List UInt8) : ∀ on, (∀ keep, ∀ c ∈ section_ keep 34 92 on (toks 34 92 s), Fine keep c) →
    openEnd on (toks 34 92 s) = false → Rest on s := by
  induction s with
  | nil =>
    intro on _ h2
    simp only [toks, openEnd] at h2
    subst h2
    exact .nil
  | cons c s ih =>
    intro on h1 h2
    by_cases hc : c = 92
    · exfalso
      subst hc
      cases s with
      | nil =>
        rw [toks, if_pos rfl] at h1
        exact not_fine (.inr rfl) (h1 on 92 (by simp [section_, Str.text]))
      | cons x r =>
        rw [toks, if_pos rfl] at h1
        by_cases hx : x = 34 ∨ x = 92
        · exact not_fine hx (h1 on x (by simp [section_, Str.text, hx]))
        · exact not_fine (.inr rfl) (h1 on 92 (by simp [section_, Str.text, hx]))
    · rw [toks_cons hc] at h1 h2
      by_cases hq : c = 34
      · subst hq
        rw [if_pos rfl] at h1 h2
        simp only [section_, openEnd] at h1 h2
        have := ih (!on) h1 h2
        cases on with
        | true => exact ⟨[], s, rfl, by simp, this⟩
        | false =>
          obtain ⟨cs, r, rfl, h3, h4⟩ := this
          exact .quoted h3 h4
      · rw [if_neg hq] at h1 h2
        simp only [section_, openEnd] at h1 h2
        have hr := ih on (fun keep x hx => h1 keep x (List.mem_append.mpr (.inr hx))) h2
        have hf : Fine on c := h1 on c (by simp [Str.text])
        cases on with
        | true =>
          obtain ⟨cs, r, rfl, h3, h4⟩ := hr
          exact ⟨c :: cs, r, rfl, by intro x hx; rcases List.mem_cons.mp hx with rfl | hx; exact hf; exact h3 x hx, h4⟩
        | false => exact .char hf hr

theorem of_rest : ∀ (s : List UInt8), Disp s → (∀ keep, ∀ c ∈ section_ keep 34 92 false (toks 34 92 s), Fine keep c) ∧
    openEnd false (toks 34 92 s) = false := by
  have inner : ∀ (cs r : List UInt8), (∀ c ∈ cs, QuotedChar c) →
      ((∀ keep, ∀ c ∈ section_ keep 34 92 false (toks 34 92 r), Fine keep c) ∧ openEnd false (toks 34 92 r) = false) →
      ((∀ keep, ∀ c ∈ section_ keep 34 92 true (toks 34 92 (cs ++ 34 :: r)), Fine keep c) ∧
        openEnd true (toks 34 92 (cs ++ 34 :: r)) = false) := by
    intro cs r
    induction cs with
    | nil =>
      intro _ h
      rw [List.nil_append, toks_cons (by decide), if_pos rfl]
      simpa only [section_, openEnd, Bool.not_true] using h
    | cons c cs ih =>
      intro hc h
      have h1 : c ≠ 92 := fun e => not_fine (keep := true) (.inr e) (hc c (by simp))
      have h2 : c ≠ 34 := fun e => not_fine (keep := true) (.inl e) (hc c (by simp))
      obtain ⟨i1, i2⟩ := ih (fun x hx => hc x (by simp [hx])) h
      rw [List.cons_append, toks_cons h1, if_neg h2]
      simp only [section_, openEnd]
      refine ⟨fun keep x hx => ?_, i2⟩
      rcases List.mem_append.mp hx with hx | hx
      · split at hx
        · rename_i hk
          rw [Str.text, List.mem_singleton] at hx
          subst hx hk
          exact hc x (by simp)
        · cases hx
      · exact i1 keep x hx
  intro s h
  induction h with
  | nil => exact ⟨by simp [toks, section_], rfl⟩
  | @char c r hc _ ih =>
    have h1 : c ≠ 92 := fun e => not_fine (keep := false) (.inr e) hc
    have h2 : c ≠ 34 := fun e => not_fine (keep := false) (.inl e) hc
    rw [toks_cons h1, if_neg h2]
    simp only [section_, openEnd]
    refine ⟨fun keep x hx => ?_, ih.2⟩
    rcases List.mem_append.mp hx with hx | hx
    · split at hx
      · rename_i hk
        rw [Str.text, List.mem_singleton] at hx
        subst hx hk
        exact hc
      · cases hx
    · exact ih.1 keep x hx
  | quoted hc _ ih =>
    rw [toks_cons (by decide), if_pos rfl]
    simp only [section_, openEnd, Bool.not_false]
    exact inner _ _ hc ih

theorem bad_iff (s : List UInt8) {set : List UInt8} (h : set ≠ []) : bad (some s) set = false ↔ ∀ c ∈ s, c ∈ set := by
  unfold bad
  rw [Option.getD_some]
  by_cases hs : s = []
  · subst hs; simp
  · have : s.isEmpty = false := by cases s <;> simp_all
    have hi := isCharset_iff s h
    rw [this, Bool.not_false, Bool.true_and, Bool.not_eq_false', hi]
    simp [hs]

theorem displayName_iff {s : List UInt8} (hs : s ≠ []) (he : fend s [] false = false) :
    ∃ b, displayName s = some b ∧ (b = true ↔ Disp s) := by
  have ho := openEnd_fend s
  rw [he] at ho
  unfold displayName
  rw [Str.quoted_partial true s 34 92 (by decide) hs, Str.quoted_partial false s 34 92 (by decide) hs, ho]
  refine ⟨_, rfl, ?_⟩
  simp only [Bool.false_eq_true, if_false, Bool.and_eq_true, Bool.not_eq_true']
  rw [bad_iff _ (by simp [inQuoted, inName]), bad_iff _ (by simp [inName])]
  have hq : ∀ c, c ∈ inQuoted ↔ QuotedChar c := by
    intro c
    simp only [inQuoted, inName, List.mem_append, mem_alnum, QuotedChar, NameChar]
  have hn : ∀ c, c ∈ inName ↔ NameChar c := by
    intro c
    simp only [inName, List.mem_append, mem_alnum, NameChar]
  constructor
  · rintro ⟨h1, h2⟩
    refine rest_of s false (fun keep c hc => ?_) ho
    cases keep with
    | true => exact (hq c).mp (h1 c hc)
    | false => exact (hn c).mp (h2 c hc)
  · intro h
    have := (of_rest s h).1
    exact ⟨fun c hc => (hq c).mpr (this true c hc), fun c hc => (hn c).mpr (this false c hc)⟩

end Verif.Verify
