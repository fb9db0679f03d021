import Verif.Verify.ListLemmas

/-!
# C121: domain names and email addresses

Strings are C strings, so they have no zero byte.
-/

namespace Verif.Verify
open Verif
open Verif.Str (join)

/-- A domain name is accepted exactly if it is one, whatever the string, and nothing outside it is read. -/
theorem domain_exact (s : List UInt8) (h0 : 0 ∉ s) : ∃ b, domain s = some b ∧ (b = true ↔ Domain s) := domain_iff s h0

/-- An email address is accepted exactly if it is one, whatever the string, and nothing outside it is read.  Where the grammar
is narrower than what is documented, see `escaped_quote_fails`. -/
theorem email_exact (s : List UInt8) (h0 : 0 ∉ s) : ∃ b, email s = some b ∧ (b = true ↔ Email s) := by
  have hshape : ∀ n a, Disp n → Addr a → Shape n a := by
    intro n a h1 h2
    obtain ⟨f1, f2, f3⟩ := h1.closed.flags [] rfl
    obtain ⟨g1, g2, _⟩ := (addr_closed h2).flags (60 :: n.reverse) (Str.isEscaped_other (by decide) _)
    have ha : ∀ c ∈ ([60, 62] : List UInt8), (c, false) ∉ flags n [] false := by
      intro c hc hm
      rcases f2 c hm with h | h
      · subst h; revert hc; decide
      · exact not_name (by clear hm h; revert c; decide) h
    have hb : ∀ c ∈ ([60, 62] : List UInt8), (c, false) ∉ flags a (60 :: n.reverse) false := by
      intro c hc hm
      rcases g2 c hm with h | h
      · subst h; revert hc; decide
      · exact out_not (by clear hm h; revert c; decide) h
    exact ⟨ha 60 (by decide), ha 62 (by decide), f1, hb 60 (by decide), hb 62 (by decide), g1⟩
  have haddr3 : ∀ a, Addr a → 3 ≤ a.length ∧ countQuoted a 60 = 0 ∧ countQuoted a 62 = 0 := by
    intro a h
    refine ⟨?_, (addr_closed h).count (by decide) (out_not (by decide)), (addr_closed h).count (by decide) (out_not (by decide))⟩
    obtain ⟨l, d, h1, ⟨_, ls, h2, h3, rfl⟩, rfl⟩ := h
    have e1 := List.length_pos_iff.mpr h1.ne
    have e2 : 0 < (join [46] ls).length := by
      cases ls with
      | nil => exact absurd rfl h2
      | cons x ls => exact List.length_pos_iff.mpr (join_ne ls (h3 x (by simp)).ne)
    simp only [List.length_append, List.length_cons]
    omega
  unfold email
  by_cases hl : s.length < 3 ∨ s.length > 254
  · rw [if_pos hl]
    refine ⟨false, rfl, by simp, ?_⟩
    rintro ⟨h1, h2⟩
    rcases hl with hl | hl
    · rcases h2 with h | ⟨n, a, _, h, rfl⟩
      · have := (haddr3 s h).1; omega
      · have := (haddr3 a h).1
        simp only [List.length_append, List.length_cons] at hl
        omega
    · omega
  · rw [if_neg hl]
    dsimp only
    have hlen : s.length ≤ 254 := by omega
    have hs : s ≠ [] := by rintro rfl; simp at hl
    have key : Email s → countQuoted s 60 = countQuoted s 62 ∧ ¬ countQuoted s 60 > 1 := by
      rintro ⟨_, h | ⟨n, a, h1, h2, rfl⟩⟩
      · obtain ⟨_, e1, e2⟩ := haddr3 s h; omega
      · obtain ⟨e1, e2⟩ := (hshape n a h1 h2).count; omega
    by_cases ho : countQuoted s 60 ≠ countQuoted s 62 ∨ countQuoted s 60 > 1
    · rw [if_pos ho]
      refine ⟨false, rfl, by simp, fun h => ?_⟩
      have := key h
      omega
    · rw [if_neg ho]
      by_cases hz : countQuoted s 60 > 0
      · rw [if_pos hz]
        have c1 : countQuoted s 60 = 1 := by omega
        have c2 : countQuoted s 62 = 1 := by omega
        obtain ⟨_, z, _, hz1, _, hz2⟩ := ends hs
        rw [hz1, Option.bind_some]
        have hna : ¬ Addr s := fun h => by have := (haddr3 s h).2.1; omega
        have hend : Email s → z = 62 ∧ fend s [] false = false := by
          rintro ⟨_, h | ⟨n, a, h1, h2, rfl⟩⟩
          · exact absurd h hna
          · have hsh := hshape n a h1 h2
            refine ⟨?_, ?_⟩
            · rw [List.getLast?_append, List.getLast?_cons, List.getLast?_append] at hz2
              simpa using hz2.symm
            · rw [fend_append, hsh.a3, fend, if_neg (by simp), List.append_nil, fend_append, hsh.b3, fend, if_neg (by simp), fend]
        by_cases hz3 : z = 62
        · rw [if_neg (by simp [hz3])]
          subst hz3
          cases hf : fend s [] false with
          | true =>
            have hbr : ∀ keep, Str.bracketed keep s 60 62 34 92 = none := by
              intro keep
              unfold Str.bracketed
              rw [if_neg (by simp [hs])]
              cases hb : Str.bracketLoop keep 60 62 34 92 s [] false 0 [] with
              | none => rfl
              | some r =>
                have := bracketLoop_end keep s [] false 0 [] r hb
                rw [hf] at this
                rw [Option.bind_some, if_pos (.inr this)]
            rw [hbr, hbr]
            refine ⟨false, rfl, by simp, fun h => ?_⟩
            have := (hend h).2
            rw [hf] at this
            cases this
          | false =>
            obtain ⟨a, b, rfl, hsh⟩ := shape_of c1 c2 hz2 hf
            obtain ⟨b1, b2⟩ := hsh.bracketed
            rw [b1, b2, Option.getD_some, Option.getD_some]
            have hb0 : 0 ∉ b := fun h => h0 (by simp [h])
            obtain ⟨r, e, hr⟩ := bare_iff b hb0
            have hd : ∃ b, (if a.isEmpty = true then some true else displayName a) = some b ∧ (b = true ↔ Disp a) := by
              cases a with
              | nil => exact ⟨true, rfl, by simp [Disp.nil]⟩
              | cons c a => exact displayName_iff (by simp) hsh.a3
            obtain ⟨ok, e1, hok⟩ := hd
            rw [e1, Option.bind_some, e]
            have hem : Email (a ++ 60 :: (b ++ [62])) ↔ Disp a ∧ Addr b := by
              constructor
              · rintro ⟨_, h | ⟨n, a', h1, h2, h3⟩⟩
                · exact absurd h hna
                · have hsh' := hshape n a' h1 h2
                  obtain ⟨d1, d2⟩ := hsh'.bracketed
                  rw [← h3] at d1 d2
                  rw [b1] at d1
                  rw [b2] at d2
                  cases d1
                  cases d2
                  exact ⟨h1, h2⟩
              · rintro ⟨h1, h2⟩
                exact ⟨hlen, .inr ⟨a, b, h1, h2, rfl⟩⟩
            rw [hem]
            cases ok with
            | true => exact ⟨r, by simp, by rw [hr]; exact ⟨fun h => ⟨hok.mp rfl, h⟩, fun h => h.2⟩⟩
            | false => exact ⟨false, by simp, by simp, fun h => hok.mpr h.1⟩
        · rw [if_pos hz3]
          exact ⟨false, rfl, by simp, fun h => absurd (hend h).1 hz3⟩
      · rw [if_neg hz]
        obtain ⟨b, e, hb⟩ := bare_iff s h0
        refine ⟨b, e, hb.trans ⟨fun h => ⟨hlen, .inl h⟩, ?_⟩⟩
        rintro ⟨_, h | ⟨n, a, h1, h2, rfl⟩⟩
        · exact h
        · have := (hshape n a h1 h2).count.1
          omega

/-! ## Lists -/

theorem email_white {c : UInt8} {s : List UInt8} (hc : c = 32 ∨ c = 9) (h : Email (c :: s)) : Email s := by
  have hno : ∀ l, ¬ Addr (c :: l) := by
    rintro l ⟨l', d, h1, _, e⟩
    cases l' with
    | nil => exact h1.ne rfl
    | cons x l' =>
      have : c = x := (List.cons.inj e).1
      subst this
      rcases h1.chars c (by simp) with h | h
      · rw [← mem_alnum] at h
        rcases hc with rfl | rfl <;> (revert h; decide +kernel)
      · rcases hc with rfl | rfl <;> (revert h; decide)
  obtain ⟨h1, h2 | ⟨n, a, h2, h3, h4⟩⟩ := h
  · exact absurd h2 (hno s)
  · cases n with
    | nil =>
      have : c = 60 := (List.cons.inj h4).1
      subst this
      exact absurd hc (by decide)
    | cons x n =>
      obtain ⟨e1, e2⟩ := List.cons.inj h4
      subst e1
      refine ⟨by rw [List.length_cons] at h1; omega, .inr ⟨n, a, ?_, h3, e2⟩⟩
      cases h2 with
      | char _ h => exact h
      | quoted => exact absurd hc (by decide)

theorem email_last {s : List UInt8} (h : Email s) : ∀ c t, s = t ++ [c] → Chr.isSpace c = false := by
  have hsp : ∀ c, (Alnum c ∨ c = 45 ∨ c = 46 ∨ c = 62) → Chr.isSpace c = false := by
    intro c hc
    rw [← mem_alnum] at hc
    have : ∀ k : Fin 256, (UInt8.ofNat k ∈ alnum ∨ UInt8.ofNat k = 45 ∨ UInt8.ofNat k = 46 ∨ UInt8.ofNat k = 62) → Chr.isSpace (UInt8.ofNat k) = false := by
      decide +kernel
    have h := this ⟨c.toNat, c.toNat_lt⟩
    simp only [UInt8.ofNat_toNat] at h
    exact h hc
  intro c t e
  rcases h.2 with ⟨l, d, h1, h2, h3⟩ | ⟨n, a, _, _, h3⟩
  · have hd : d ≠ [] := by
      obtain ⟨_, ls, h4, h5, rfl⟩ := h2
      cases ls with
      | nil => exact absurd rfl h4
      | cons x ls => exact join_ne ls (h5 x (by simp)).ne
    have hm : c ∈ d := by
      have : s.getLast? = some c := by rw [e]; simp
      rw [h3, List.getLast?_append, List.getLast?_cons, List.getLast?_eq_some_getLast hd] at this
      simp only [Option.getD_some, Option.some_or, Option.some.injEq] at this
      rw [← this]
      exact List.getLast_mem hd
    exact hsp c ((domain_chars h2 c hm).imp id fun h => h.imp id .inl)
  · have : s.getLast? = some c := by rw [e]; simp
    rw [h3, List.getLast?_append, List.getLast?_cons, List.getLast?_append] at this
    have : (62 : UInt8) = c := by simpa using this
    exact hsp c (.inr (.inr (.inr this.symm)))

theorem entry_trim {s : List UInt8} (hs : ∀ c ∈ s, c ∉ ([13, 10, 12, 11] : List UInt8)) : Entry s ↔ Email (Str.trim s) := by
  have hsp : ∀ c ∈ s, Chr.isSpace c = true → c = 32 ∨ c = 9 := by
    intro c hc h
    have := hs c hc
    unfold Chr.isSpace at h
    simp only [Bool.or_eq_true, beq_iff_eq] at h
    simp only [List.mem_cons, List.not_mem_nil, or_false, not_or] at this
    obtain ⟨n1, n2, n3, n4⟩ := this
    rcases h with ((((h | h) | h) | h) | h) | h
    · exact .inl h
    · exact .inr h
    · exact absurd h n3
    · exact absurd h n2
    · exact absurd h n1
    · exact absurd h n4
  have hws : ∀ {w : List UInt8}, White w → ∀ x ∈ w, Chr.isSpace x = true := by
    intro w hw x hx
    rcases hw x hx with rfl | rfl <;> decide
  constructor
  · rintro ⟨w, a, w', h1, h2, h3, rfl⟩
    have hsplit : ∀ a : List UInt8, Email a → ∃ v a', a = v ++ a' ∧ White v ∧ Email a' ∧ Str.NoOuter a' := by
      intro a
      induction a with
      | nil => intro h; exact absurd rfl (email_ne h)
      | cons c a ih =>
        intro h
        by_cases hc : c = 32 ∨ c = 9
        · obtain ⟨v, a', e, i1, i2, i3⟩ := ih (email_white hc h)
          refine ⟨c :: v, a', by rw [e]; rfl, ?_, i2, i3⟩
          intro x hx
          rcases List.mem_cons.mp hx with rfl | hx
          · exact hc
          · exact i1 x hx
        · refine ⟨[], c :: a, rfl, nofun, h, ?_, email_last h⟩
          intro x t e
          obtain ⟨rfl, rfl⟩ := List.cons.inj e
          refine Bool.eq_false_iff.mpr fun hx => ?_
          have hcl := email_clean h c (by simp)
          unfold Chr.isSpace at hx
          simp only [Bool.or_eq_true, beq_iff_eq] at hx
          simp only [List.mem_cons, List.not_mem_nil, or_false, not_or] at hcl hc
          rcases hx with ((((h | h) | h) | h) | h) | h
          · exact hc.1 h
          · exact hc.2 h
          · exact hcl.2.2.2.1 h
          · exact hcl.2.1 h
          · exact hcl.2.2.2.2 h
          · exact hcl.2.2.1 h
    obtain ⟨v, a', rfl, i1, i2, i3⟩ := hsplit a h3
    rw [Str.trim_unique (s := w ++ (v ++ a') ++ w') (a := w ++ v) (b := w') (t := a') (by simp) ?_ (hws h2) i3]
    · exact i2
    · intro x hx
      rcases List.mem_append.mp hx with hx | hx
      · exact hws h1 x hx
      · exact hws i1 x hx
  · intro h
    obtain ⟨a, b, e, h1, h2, _⟩ := Str.trim_correct s
    refine ⟨a, Str.trim s, b, ?_, ?_, h, e⟩
    · exact fun c hc => hsp c (by rw [e]; simp [hc]) (h1 c hc)
    · exact fun c hc => hsp c (by rw [e]; simp [hc]) (h2 c hc)

theorem each_iff : ∀ ps : List (List UInt8), (∀ p ∈ ps, 0 ∉ p) → ∃ b, each ps = some b ∧ (b = true ↔ ∀ p ∈ ps, Email (Str.trim p))
  | [], _ => ⟨true, rfl, by simp⟩
  | p :: ps, h0 => by
    have ht : 0 ∉ Str.trim p := by
      obtain ⟨a, b, e, _⟩ := Str.trim_correct p
      exact fun h => h0 p (by simp) (by rw [e]; simp [h])
    obtain ⟨b, e, hb⟩ := email_exact (Str.trim p) ht
    obtain ⟨b', e', hb'⟩ := each_iff ps fun x hx => h0 x (by simp [hx])
    rw [each]
    have e2 : (if (Str.trim p).isEmpty = true then some false else email (Str.trim p)) = some b := by
      split
      · rename_i hemp
        have : ¬ Email (Str.trim p) := fun h => email_ne h (by simpa using hemp)
        cases b with
        | true => exact absurd (hb.mp rfl) this
        | false => rfl
      · exact e
    rw [e2, Option.bind_some, e']
    cases b with
    | true => exact ⟨b', by simp, by simp [hb', hb.mp rfl]⟩
    | false => exact ⟨false, by simp, by simp, fun h => hb.mpr (h p (by simp))⟩

/-- Which delimiters may be used. -/
def Allowed : Delim → UInt8 → Prop
  | .auto, d => d = 44 ∨ d = 59
  | .comma, d => d = 44
  | .semicolon, d => d = 59

/-- A list is accepted exactly if it is one address, or 2 to 100 addresses with one of the delimiters between them, each with
any space around it; whatever the string, and nothing outside it is read.

Partial, as one address with space around it is no list: see `single_space_fails`. -/
theorem list_partial (s : List UInt8) (h0 : 0 ∉ s) (ty : Delim) : ∃ b, list s ty = some b ∧ (b = true ↔ Email s ∨
    ∃ d ps, Allowed ty d ∧ 2 ≤ ps.length ∧ ps.length ≤ 100 ∧ (∀ p ∈ ps, Entry p) ∧ s = join [d] ps) := by
  have hall : ∀ {d}, Allowed ty d → d = 44 ∨ d = 59 := by
    intro d h
    cases ty with
    | auto => exact h
    | comma => exact .inl h
    | semicolon => exact .inr h
  have hdn : ∀ {d : UInt8}, d = 44 ∨ d = 59 → ¬ Out' d ∧ d ≠ 34 := by
    rintro d (rfl | rfl)
    · exact ⟨out'_not (by decide), by decide⟩
    · exact ⟨out'_not (by decide), by decide⟩
  have hctrl : ∀ c : UInt8, c ∉ ([0, 10, 11, 12, 13] : List UInt8) → c ∉ ([13, 10, 12, 11] : List UInt8) := by
    intro c h h'
    refine h ?_
    clear h
    revert c
    decide
  -- what a list that is accepted is like
  have hspec : (Email s ∨ ∃ d ps, Allowed ty d ∧ 2 ≤ ps.length ∧ ps.length ≤ 100 ∧ (∀ p ∈ ps, Entry p) ∧ s = join [d] ps) →
      s ≠ [] ∧ ∀ c ∈ s, c ∉ ([13, 10, 12, 11] : List UInt8) := by
    rintro (h | ⟨d, ps, hd, h2, _, hp, rfl⟩)
    · exact ⟨email_ne h, fun c hc => hctrl c (email_clean h c hc)⟩
    · refine ⟨?_, fun c hc => ?_⟩
      · match ps, h2 with
        | p :: q :: ps, _ => rw [join]; simp
      · rcases mem_join hc with rfl | ⟨p, hm, hc⟩
        · rcases hall hd with rfl | rfl <;> decide
        · exact hctrl c (entry_clean (hp p hm) c hc)
  unfold list
  by_cases he : s.isEmpty
  · rw [if_pos he]
    exact ⟨false, rfl, by simp, fun h => absurd (by simpa using he) (hspec h).1⟩
  · rw [if_neg he]
    have hs : s ≠ [] := by simpa using he
    by_cases hc : (!(s.all fun c => !([13, 10, 12, 11] : List UInt8).any fun a => c == a)) = true
    · rw [if_pos hc]
      refine ⟨false, rfl, by simp, fun h => ?_⟩
      exfalso
      rw [Bool.not_eq_true', List.all_eq_false] at hc
      obtain ⟨c, hc1, hc2⟩ := hc
      refine (hspec h).2 c hc1 ?_
      simp only [Bool.not_eq_true', Bool.not_eq_false, List.any_eq_true, beq_iff_eq] at hc2
      obtain ⟨a, ha, e⟩ := hc2
      exact e ▸ ha
    · rw [if_neg hc]
      have hclean : ∀ c ∈ s, c ∉ ([13, 10, 12, 11] : List UInt8) := by
        intro c hm
        simp only [Bool.not_eq_true', Bool.not_eq_false, List.all_eq_true] at hc
        have := hc c hm
        simpa using this
      dsimp only
      -- the counts in a list of the second kind
      have hlist : ∀ {d ps}, Allowed ty d → 2 ≤ ps.length → (∀ p ∈ ps, Entry p) → s = join [d] ps →
          countQuoted s d > 0 ∧ (∀ c, (c = 44 ∨ c = 59) → c ≠ d → countQuoted s c = 0) ∧ Str.partsQ d 34 92 s none false [] = ps := by
        intro d ps hd h2 hp es
        have hcl : ∀ p ∈ ps, Closed Out' p := fun p hm => entry_closed (hp p hm)
        refine ⟨?_, ?_, ?_⟩
        · match ps, h2 with
          | p :: q :: ps, _ => rw [es]; exact join_count (hall hd) (hcl p (by simp))
        · intro c hc hne
          rw [es]
          refine (join_closed (hall hd) ps hcl).count (hdn hc).2 ?_
          rintro (h | h)
          · exact (hdn hc).1 h
          · exact hne h
        · rw [es]
          exact parts_join (hall hd) (hdn (hall hd)).1 ps none (by rintro rfl; simp at h2) hcl rfl
      have hemail : Email s → ∀ c, (c = 44 ∨ c = 59) → countQuoted s c = 0 :=
        fun h c hc => (email_closed h).count (hdn hc).2 (hdn hc).1
      cases hdl : delimiter ty (countQuoted s 44) (countQuoted s 59) with
      | none =>
        refine ⟨false, rfl, by simp, ?_⟩
        have hboth : countQuoted s 44 > 0 ∧ countQuoted s 59 > 0 := by
          unfold delimiter at hdl
          cases ty with
          | auto =>
            dsimp only at hdl
            split at hdl
            · assumption
            · split at hdl
              · cases hdl
              · split at hdl <;> cases hdl
          | comma => cases hdl
          | semicolon => cases hdl
        rintro (h | ⟨d, ps, hd, h2, h3, hp, es⟩)
        · have := hemail h 44 (.inl rfl); omega
        · have := (hlist hd h2 hp es).2.1
          rcases hall hd with rfl | rfl
          · have := this 59 (.inr rfl) (by decide); omega
          · have := this 44 (.inl rfl) (by decide); omega
      | some d =>
        have hd : Allowed ty d := by
          unfold delimiter at hdl
          cases ty with
          | auto =>
            dsimp only at hdl
            split at hdl
            · cases hdl
            · split at hdl
              · cases hdl; exact .inl rfl
              · split at hdl <;> cases hdl
                · exact .inr rfl
                · exact .inl rfl
          | comma => cases hdl; rfl
          | semicolon => cases hdl; rfl
        -- the delimiter is the one of the list
        have hsame : ∀ {d' ps}, Allowed ty d' → 2 ≤ ps.length → (∀ p ∈ ps, Entry p) → s = join [d'] ps → d' = d := by
          intro d' ps hd' h2 hp es
          obtain ⟨g1, g2, _⟩ := hlist hd' h2 hp es
          cases ty with
          | auto =>
            unfold delimiter at hdl
            dsimp only at hdl
            rcases hd' with rfl | rfl
            · have := g2 59 (.inr rfl) (by decide)
              rw [if_neg (by omega), if_pos g1] at hdl
              exact Option.some.inj hdl
            · have := g2 44 (.inl rfl) (by decide)
              rw [if_neg (by omega), if_neg (by omega), if_pos g1] at hdl
              exact Option.some.inj hdl
          | comma => exact hd'.trans hd.symm
          | semicolon => exact hd'.trans hd.symm
        dsimp only
        have hif : ((d = 44 ∧ countQuoted s 44 = 0) ∨ (d = 59 ∧ countQuoted s 59 = 0)) ↔ countQuoted s d = 0 := by
          rcases hall hd with rfl | rfl <;> simp
        by_cases hz : countQuoted s d = 0
        · rw [if_pos (hif.mpr hz)]
          obtain ⟨b, e, hb⟩ := email_exact s h0
          refine ⟨b, e, hb.trans ⟨.inl, ?_⟩⟩
          rintro (h | ⟨d', ps, hd', h2, h3, hp, es⟩)
          · exact h
          · have := (hlist hd' h2 hp es).1
            rw [hsame hd' h2 hp es] at this
            omega
        · rw [if_neg (fun h => hz (hif.mp h))]
          obtain ⟨xs, e, hj, hx⟩ := explodeQ_eq (hall hd) hs
          rw [e, Option.bind_some]
          dsimp only
          have hmem : ∀ p ∈ xs, ∀ c ∈ p, c ∈ s := by
            have : ∀ (xs : List (List UInt8)), ∀ p ∈ xs, ∀ c ∈ p, c ∈ join [d] xs := by
              intro xs
              induction xs with
              | nil => intro p hp; cases hp
              | cons x xs ih =>
                intro p hp c hc
                cases xs with
                | nil => rw [join]; rw [List.mem_singleton.mp hp] at hc; exact hc
                | cons y ys =>
                  rw [join]
                  rcases List.mem_cons.mp hp with rfl | hp
                  · simp [hc]
                  · exact List.mem_append.mpr (.inr (ih p hp c hc))
            rw [← hj]
            exact this xs
          have hent : ∀ p ∈ xs, (Entry p ↔ Email (Str.trim p)) := fun p hp => entry_trim fun c hc => hclean c (hmem p hp c hc)
          by_cases hn : xs.length > 100
          · rw [if_pos hn]
            refine ⟨false, rfl, by simp, ?_⟩
            rintro (h | ⟨d', ps, hd', h2, h3, hp, es⟩)
            · exact absurd (hemail h d (hall hd)) hz
            · have h' := hsame hd' h2 hp es
              subst h'
              have := (hlist hd' h2 hp es).2.2
              rw [← hx] at this
              rw [this] at hn
              omega
          · rw [if_neg hn]
            obtain ⟨b, e', hb⟩ := each_iff xs fun p hp h => h0 (hmem p hp 0 h)
            refine ⟨b, e', hb.trans ⟨fun h => .inr ⟨d, xs, hd, ?_, by omega, fun p hp => (hent p hp).mpr (h p hp), hj.symm⟩, ?_⟩⟩
            · match xs, hj with
              | [], hj => exact absurd hj.symm hs
              | [x], hj =>
                exfalso
                have hex := (hent x (by simp)).mpr (h x (by simp))
                have : x = s := hj
                rw [this] at hex
                exact hz ((entry_closed hex).count (hdn (hall hd)).2 (hdn (hall hd)).1)
              | _ :: _ :: _, _ => simp
            · rintro (h | ⟨d', ps, hd', h2, h3, hp, es⟩)
              · exact absurd (hemail h d (hall hd)) hz
              · have h' := hsame hd' h2 hp es
                subst h'
                have := (hlist hd' h2 hp es).2.2
                rw [← hx] at this
                subst this
                exact fun p hm => (hent p hm).mp (hp p hm)

/-! ## Cases that meet the hypotheses -/

/-- `a-b.c` is a domain name, `-a` and `a..b` are not. -/
example : domain [97, 45, 98, 46, 99] = some true ∧ domain [45, 97] = some false ∧ domain [97, 46, 46, 98] = some false := by
  decide +kernel

/-- `"a,<" b <x..y@c>` is an email address. -/
example : email [34, 97, 44, 60, 34, 32, 98, 32, 60, 120, 46, 46, 121, 64, 99, 62] = some true := by decide +kernel

example : Email [97, 64, 98] := by
  obtain ⟨b, e, h⟩ := email_exact [97, 64, 98] (by decide)
  have : email [97, 64, 98] = some true := by decide +kernel
  rw [this] at e
  cases e
  exact h.mp rfl

/-- `a@b , "x,y" <c@d>` is a list with commas, not one with semicolons. -/
example : list [97, 64, 98, 32, 44, 32, 34, 120, 44, 121, 34, 32, 60, 99, 64, 100, 62] .auto = some true ∧
    list [97, 64, 98, 32, 44, 32, 34, 120, 44, 121, 34, 32, 60, 99, 64, 100, 62] .semicolon = some false := by decide +kernel

/-! ## Where the code does something else -/

/-- An escaped quote in a display name is documented to be allowed, but is not: `"a\"b" <c@d>`. -/
theorem escaped_quote_fails : email [34, 97, 92, 34, 98, 34, 32, 60, 99, 64, 100, 62] = some false := by decide +kernel

/-- A list of one address with space around it is refused, while with two of them space does not matter. -/
theorem single_space_fails : Entry [32, 97, 64, 98] ∧ list [32, 97, 64, 98] .auto = some false ∧
    list [32, 97, 64, 98, 44, 32, 97, 64, 98] .auto = some true := by
  refine ⟨?_, by decide +kernel, by decide +kernel⟩
  refine (entry_trim (by decide)).mpr ?_
  obtain ⟨b, e, h⟩ := email_exact (Str.trim [32, 97, 64, 98]) (by decide +kernel)
  have : email (Str.trim [32, 97, 64, 98]) = some true := by decide +kernel
  rw [this] at e
  cases e
  exact h.mp rfl

end Verif.Verify
