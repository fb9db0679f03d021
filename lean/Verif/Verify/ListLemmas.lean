import Verif.Verify.Lemmas

/-!
# Lemmas about lists of addresses
-/

namespace Verif.Verify
open Verif
open Verif.Str (join isEscaped partsQ ceq)

/-- Text without a backslash and with closed quotes; `P` holds for what is not in quotes. -/
inductive Closed (P : UInt8 → Prop) : List UInt8 → Prop
  | nil : Closed P []
  | char {c : UInt8} {r : List UInt8} : P c → c ≠ 34 → c ≠ 92 → Closed P r → Closed P (c :: r)
  | quoted {cs r : List UInt8} : (∀ c ∈ cs, c ≠ 34 ∧ c ≠ 92) → Closed P r → Closed P (34 :: (cs ++ 34 :: r))

variable {P Q : UInt8 → Prop}

theorem Closed.mono {s : List UInt8} (h : Closed P s) (hp : ∀ c, P c → Q c) : Closed Q s := by
  induction h with
  | nil => exact .nil
  | char h1 h2 h3 _ ih => exact .char (hp _ h1) h2 h3 ih
  | quoted h1 _ ih => exact .quoted h1 ih

theorem Closed.append {a b : List UInt8} (ha : Closed P a) (hb : Closed P b) : Closed P (a ++ b) := by
  induction ha with
  | nil => exact hb
  | char h1 h2 h3 _ ih => exact .char h1 h2 h3 ih
  | @quoted cs r h1 _ ih =>
    rw [List.cons_append, List.append_assoc, List.cons_append]
    exact .quoted h1 ih

theorem Closed.plain : ∀ {s : List UInt8}, (∀ c ∈ s, P c ∧ c ≠ 34 ∧ c ≠ 92) → Closed P s
  | [], _ => .nil
  | c :: s, h => .char (h c (by simp)).1 (h c (by simp)).2.1 (h c (by simp)).2.2 (Closed.plain fun x hx => h x (by simp [hx]))

theorem Closed.flags {s : List UInt8} (h : Closed P s) : ∀ rev, isEscaped 92 rev = false →
    fend s rev false = false ∧ (∀ c, (c, false) ∈ flags s rev false → c = 34 ∨ P c) ∧ isEscaped 92 (s.reverse ++ rev) = false := by
  induction h with
  | nil => exact fun rev h => ⟨rfl, by simp [Verify.flags], h⟩
  | @char c r h1 h2 h3 _ ih =>
    intro rev hr
    obtain ⟨i1, i2, i3⟩ := ih (c :: rev) (Str.isEscaped_other h3 rev)
    rw [fend, Verify.flags, if_neg (fun h => h2 h.1)]
    refine ⟨i1, ?_, by simpa using i3⟩
    intro x hx
    rcases List.mem_cons.mp hx with hx | hx
    · rw [(Prod.mk.inj hx).1]; exact .inr h1
    · exact i2 x hx
  | @quoted cs r h1 _ ih =>
    intro rev hr
    have inner : ∀ (cs rev : List UInt8), (∀ c ∈ cs, c ≠ 34 ∧ c ≠ 92) → isEscaped 92 rev = false →
        fend cs rev true = true ∧ (∀ c, (c, false) ∉ Verify.flags cs rev true) ∧ isEscaped 92 (cs.reverse ++ rev) = false := by
      intro cs
      induction cs with
      | nil => exact fun rev _ h => ⟨rfl, by simp [Verify.flags], h⟩
      | cons c cs ih =>
        intro rev hc hr
        obtain ⟨g1, g2⟩ := hc c (by simp)
        obtain ⟨i1, i2, i3⟩ := ih (c :: rev) (fun x hx => hc x (by simp [hx])) (Str.isEscaped_other g2 rev)
        rw [fend, Verify.flags, if_neg (fun h => g1 h.1)]
        refine ⟨i1, ?_, by simpa using i3⟩
        intro x hx
        rcases List.mem_cons.mp hx with hx | hx
        · cases (Prod.mk.inj hx).2
        · exact i2 x hx
    have hr1 : isEscaped 92 (34 :: rev) = false := Str.isEscaped_other (by decide) rev
    obtain ⟨j1, j2, j3⟩ := inner cs (34 :: rev) h1 hr1
    obtain ⟨i1, i2, i3⟩ := ih (34 :: (cs.reverse ++ 34 :: rev)) (Str.isEscaped_other (by decide) _)
    rw [fend, Verify.flags, if_pos ⟨rfl, hr⟩, fend_append, flags_append, Bool.not_false, j1, fend, Verify.flags, if_pos ⟨rfl, j3⟩, Bool.not_true]
    refine ⟨i1, ?_, by simpa using i3⟩
    intro x hx
    rcases List.mem_cons.mp hx with hx | hx
    · cases (Prod.mk.inj hx).2
    · rcases List.mem_append.mp hx with hx | hx
      · exact absurd hx (j2 x)
      · rcases List.mem_cons.mp hx with hx | hx
        · exact .inl (Prod.mk.inj hx).1
        · exact i2 x hx

theorem Closed.count {s : List UInt8} (h : Closed P s) {c : UInt8} (hc : c ≠ 34) (hp : ¬ P c) : countQuoted s c = 0 := by
  rw [count_eq hc]
  refine List.count_eq_zero.mpr fun hm => ?_
  rcases (h.flags [] rfl).2.1 c hm with h | h
  · exact hc h
  · exact hp h

/-! ## Closed text in the grammar -/

theorem Disp.closed {s : List UInt8} (h : Disp s) : Closed NameChar s := by
  induction h with
  | nil => exact .nil
  | char h _ ih =>
    exact .char h (fun e => not_name (by rw [e]; decide) h) (fun e => not_name (by rw [e]; decide) h) ih
  | quoted h _ ih =>
    exact .quoted (fun c hc => ⟨fun e => not_quoted (by rw [e]; decide) (h c hc), fun e => not_quoted (by rw [e]; decide) (h c hc)⟩) ih

/-- The characters of an address outside of quotes. -/
def Out (c : UInt8) : Prop := NameChar c ∨ c = 46 ∨ c = 64

theorem addr_chars {s : List UInt8} (h : Addr s) : ∀ c ∈ s, Out c := by
  obtain ⟨l, d, h1, h2, rfl⟩ := h
  intro c hc
  rcases List.mem_append.mp hc with hc | hc
  · rcases h1.chars c hc with h | h
    · exact .inl (.inl h)
    · simp only [List.mem_cons, List.not_mem_nil, or_false] at h
      unfold Out NameChar
      rcases h with rfl | rfl | rfl | rfl | rfl | rfl | rfl | rfl | rfl | rfl | rfl <;> simp
  · rcases List.mem_cons.mp hc with rfl | hc
    · exact .inr (.inr rfl)
    · rcases domain_chars h2 c hc with h | rfl | rfl
      · exact .inl (.inl h)
      · exact .inl (.inr (by decide))
      · exact .inr (.inl rfl)

theorem out_not {c : UInt8} (h : c ∈ ([0, 10, 11, 12, 13, 34, 44, 59, 60, 62, 92] : List UInt8)) : ¬ Out c := by
  rintro (h' | h' | h')
  · refine not_name ?_ h'
    clear h'
    revert c
    decide
  · subst h'; revert h; decide
  · subst h'; revert h; decide

theorem addr_closed {s : List UInt8} (h : Addr s) : Closed Out s :=
  .plain fun c hc => ⟨addr_chars h c hc, fun e => out_not (by rw [e]; decide) (addr_chars h c hc),
    fun e => out_not (by rw [e]; decide) (addr_chars h c hc)⟩

/-- With the angle brackets. -/
def Out' (c : UInt8) : Prop := Out c ∨ c = 60 ∨ c = 62

theorem out'_not {c : UInt8} (h : c ∈ ([0, 10, 11, 12, 13, 34, 44, 59, 92] : List UInt8)) : ¬ Out' c := by
  rintro (h' | h' | h')
  · refine out_not ?_ h'
    clear h'
    revert c
    decide
  · subst h'; revert h; decide
  · subst h'; revert h; decide

theorem email_closed {s : List UInt8} (h : Email s) : Closed Out' s := by
  rcases h.2 with h | ⟨n, a, h1, h2, rfl⟩
  · exact (addr_closed h).mono fun c hc => .inl hc
  · refine (h1.closed.mono fun c hc => .inl (.inl hc)).append (.char (.inr (.inl rfl)) (by decide) (by decide) ?_)
    exact ((addr_closed h2).mono fun c hc => .inl hc).append (.char (.inr (.inr rfl)) (by decide) (by decide) .nil)

theorem white_closed {s : List UInt8} (h : White s) : Closed Out' s := by
  refine .plain fun c hc => ?_
  have : Out' c := by
    refine .inl (.inl (.inr ?_))
    rcases h c hc with rfl | rfl <;> decide
  exact ⟨this, fun e => out'_not (by rw [e]; decide) this, fun e => out'_not (by rw [e]; decide) this⟩

theorem entry_closed {s : List UInt8} (h : Entry s) : Closed Out' s := by
  obtain ⟨w, a, w', h1, h2, h3, rfl⟩ := h
  exact ((white_closed h1).append (email_closed h3)).append (white_closed h2)

/-! ## All characters -/

theorem disp_chars {s : List UInt8} (h : Disp s) : ∀ c ∈ s, c = 34 ∨ QuotedChar c := by
  induction h with
  | nil => simp
  | char h _ ih =>
    intro c hc
    rcases List.mem_cons.mp hc with rfl | hc
    · exact .inr (.inl h)
    · exact ih c hc
  | quoted h _ ih =>
    intro c hc
    rcases List.mem_cons.mp hc with rfl | hc
    · exact .inl rfl
    · rcases List.mem_append.mp hc with hc | hc
      · exact .inr (h c hc)
      · rcases List.mem_cons.mp hc with rfl | hc
        · exact .inl rfl
        · exact ih c hc

theorem out_quoted {c : UInt8} (h : Out c) : QuotedChar c := by
  rcases h with h | rfl | rfl
  · exact .inl h
  · exact .inr (by decide)
  · exact .inr (by decide)

theorem email_chars {s : List UInt8} (h : Email s) : ∀ c ∈ s, c = 34 ∨ QuotedChar c := by
  rcases h.2 with h | ⟨n, a, h1, h2, rfl⟩
  · exact fun c hc => .inr (out_quoted (addr_chars h c hc))
  · intro c hc
    rcases List.mem_append.mp hc with hc | hc
    · exact disp_chars h1 c hc
    · rcases List.mem_cons.mp hc with rfl | hc
      · exact .inr (.inr (by decide))
      · rcases List.mem_append.mp hc with hc | hc
        · exact .inr (out_quoted (addr_chars h2 c hc))
        · rw [List.mem_singleton.mp hc]
          exact .inr (.inr (by decide))

theorem email_ne {s : List UInt8} (h : Email s) : s ≠ [] := by
  rcases h.2 with ⟨l, d, _, _, rfl⟩ | ⟨n, a, h1, h2, rfl⟩ <;> simp

/-- No line ends and no zero in an address. -/
theorem email_clean {s : List UInt8} (h : Email s) : ∀ c ∈ s, c ∉ ([0, 10, 11, 12, 13] : List UInt8) := by
  intro c hc hm
  rcases email_chars h c hc with rfl | hq
  · revert hm; decide
  · refine not_quoted ?_ hq
    clear hq hc
    revert c
    decide

theorem entry_clean {s : List UInt8} (h : Entry s) : ∀ c ∈ s, c ∉ ([0, 10, 11, 12, 13] : List UInt8) := by
  obtain ⟨w, a, w', h1, h2, h3, rfl⟩ := h
  have hw : ∀ c, (c = 32 ∨ c = 9) → c ∉ ([0, 10, 11, 12, 13] : List UInt8) := by
    rintro c (rfl | rfl) <;> decide
  intro c hc
  rcases List.mem_append.mp hc with hc | hc
  · rcases List.mem_append.mp hc with hc | hc
    · exact hw c (h1 c hc)
    · exact email_clean h3 c hc
  · exact hw c (h2 c hc)

/-! ## Splitting -/

theorem closed_parts {d : UInt8} (hd : d = 44 ∨ d = 59) (hp : ¬ P d) {p : List UInt8} (h : Closed P p) :
    ∀ (rest : List UInt8) (prev : Option UInt8) (cur : List UInt8), prev.any (ceq · 92) = false →
    ∃ prev' : Option UInt8, prev'.any (ceq · 92) = false ∧
      partsQ d 34 92 (p ++ rest) prev false cur = partsQ d 34 92 rest prev' false (cur ++ p) := by
  have hd1 : d < 128 := by rcases hd with rfl | rfl <;> decide
  have hd2 : d ≠ 34 := by rcases hd with rfl | rfl <;> decide
  have other : ∀ {c : UInt8} {on : Bool}, c ≠ d → ¬ (ceq c d = true ∧ on = false) :=
    fun h h' => h ((Str.ceq_iff _ d hd1).1 h'.1)
  have esc : ∀ {c : UInt8}, c ≠ 92 → (some c : Option UInt8).any (ceq · 92) = false := by
    intro c hc
    rw [Option.any_some]
    exact Bool.eq_false_iff.mpr fun h => hc ((Str.ceq_iff c 92 (by decide)).1 h)
  have quote : ∀ {prev : Option UInt8} {on : Bool} (n : UInt8), prev.any (ceq · 92) = false →
      Str.qstep 34 92 prev on 34 n = .go (!on) := by
    intro prev on n hp
    unfold Str.qstep
    rw [if_pos ⟨by decide, by decide⟩, if_neg (by simp), if_neg (by simp [hp])]
  induction h with
  | nil => intro rest prev cur hp; exact ⟨prev, hp, by simp⟩
  | @char c r h1 h2 h3 _ ih =>
    intro rest prev cur _
    have hcd : c ≠ d := by rintro rfl; exact hp h1
    rw [List.cons_append, Str.parts_go (Str.qstep_other (by decide) h2 prev false _) (other hcd)]
    obtain ⟨p', i1, i2⟩ := ih rest (some c) (cur ++ [c]) (esc h3)
    exact ⟨p', i1, by rw [i2]; simp⟩
  | @quoted cs r h1 _ ih =>
    intro rest prev cur hprev
    have inner : ∀ (cs : List UInt8) (prev : Option UInt8) (cur rest : List UInt8), (∀ c ∈ cs, c ≠ 34 ∧ c ≠ 92) →
        prev.any (ceq · 92) = false → ∃ prev' : Option UInt8, prev'.any (ceq · 92) = false ∧
          partsQ d 34 92 (cs ++ rest) prev true cur = partsQ d 34 92 rest prev' true (cur ++ cs) := by
      intro cs
      induction cs with
      | nil => intro prev cur rest _ h; exact ⟨prev, h, by simp⟩
      | cons c cs ih =>
        intro prev cur rest hc _
        obtain ⟨g1, g2⟩ := hc c (by simp)
        rw [List.cons_append, Str.parts_go (Str.qstep_other (by decide) g1 prev true _) (by simp)]
        obtain ⟨p', i1, i2⟩ := ih (some c) (cur ++ [c]) rest (fun x hx => hc x (by simp [hx])) (esc g2)
        exact ⟨p', i1, by rw [i2]; simp⟩
    rw [List.cons_append, Str.parts_go (quote _ hprev) (by simp), List.append_assoc, List.cons_append]
    obtain ⟨p1, a1, a2⟩ := inner cs (some 34) (cur ++ [34]) (34 :: (r ++ rest)) h1 (esc (by decide))
    rw [Bool.not_false, a2, Str.parts_go (quote _ a1) (other (Ne.symm hd2)), Bool.not_true]
    obtain ⟨p2, i1, i2⟩ := ih rest (some 34) (cur ++ [34] ++ cs ++ [34]) (esc (by decide))
    exact ⟨p2, i1, by rw [i2]; simp⟩

theorem parts_join {d : UInt8} (hd : d = 44 ∨ d = 59) (hp : ¬ P d) : ∀ (ps : List (List UInt8)) (prev : Option UInt8), ps ≠ [] →
    (∀ p ∈ ps, Closed P p) → prev.any (ceq · 92) = false → partsQ d 34 92 (join [d] ps) prev false [] = ps
  | [], _, h, _, _ => absurd rfl h
  | [p], prev, _, h, hprev => by
    obtain ⟨p', _, e⟩ := closed_parts hd hp (h p (by simp)) [] prev [] hprev
    rw [List.append_nil] at e
    rw [join, e, List.nil_append, partsQ]
  | p :: q :: ps, prev, _, h, hprev => by
    have hd1 : d < 128 := by rcases hd with rfl | rfl <;> decide
    have hd2 : d ≠ 34 := by rcases hd with rfl | rfl <;> decide
    obtain ⟨p', _, e⟩ := closed_parts hd hp (h p (by simp)) (d :: join [d] (q :: ps)) prev [] hprev
    rw [join, List.append_assoc, List.singleton_append, e,
      Str.parts_cut (Str.qstep_other (by decide) hd2 p' false _) ⟨(Str.ceq_iff d d hd1).2 rfl, rfl⟩,
      parts_join hd hp (q :: ps) (some 0) (by simp) (fun x hx => h x (by simp [hx])) (by decide)]
    rfl

theorem explodeQ_eq {d : UInt8} (hd : d = 44 ∨ d = 59) {s : List UInt8} (hs : s ≠ []) :
    ∃ xs, Str.explodeQ d 34 92 0 s = some (xs.length, xs) ∧ join [d] xs = s ∧ xs = partsQ d 34 92 s none false [] := by
  obtain ⟨xs, e, hj, _⟩ := Str.explodeQ_partial d 34 92 0 (by rcases hd with rfl | rfl <;> decide) s hs
  refine ⟨xs, e, hj, ?_⟩
  unfold Str.explodeQ at e
  rw [if_neg hs] at e
  obtain ⟨ys, h1, h2⟩ := Option.map_eq_some_iff.mp e
  have := Str.fillQ_parts d 34 92 _ s none false [] [] ys h1
  rw [← (Prod.mk.inj h2).2, this, List.nil_append]

theorem join_closed {d : UInt8} (hd : d = 44 ∨ d = 59) : ∀ ps : List (List UInt8), (∀ p ∈ ps, Closed P p) →
    Closed (fun c => P c ∨ c = d) (join [d] ps)
  | [], _ => .nil
  | [p], h => (h p (by simp)).mono fun _ => .inl
  | p :: q :: ps, h => by
    rw [join]
    refine (((h p (by simp)).mono fun _ => .inl).append (.char (.inr rfl) ?_ ?_ .nil)).append
      (join_closed hd (q :: ps) fun x hx => h x (by simp [hx]))
    · rcases hd with rfl | rfl <;> decide
    · rcases hd with rfl | rfl <;> decide

theorem join_count {d : UInt8} (hd : d = 44 ∨ d = 59) {p q : List UInt8} {ps : List (List UInt8)} (h : Closed P p) :
    countQuoted (join [d] (p :: q :: ps)) d > 0 := by
  have hd2 : d ≠ 34 := by rcases hd with rfl | rfl <;> decide
  rw [count_eq hd2, join, List.append_assoc, List.singleton_append, flags_append, (h.flags [] rfl).1, flags,
    if_neg (fun h => hd2 h.1), List.count_append, List.count_cons_self]
  omega

end Verif.Verify
