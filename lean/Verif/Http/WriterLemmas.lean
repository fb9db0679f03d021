import Verif.Http.WriterSpec
import Verif.Http.HeaderProps
/- Lemmas for C87: numbers, dates, character sets, the header of a message. -/
namespace Verif.Http.Frame
open Verif.Chr (isSpace toLower)
open Verif.Str (NoOuter join)
open Verif.Num (value digitVal)

/-! ### Numbers and dates -/

theorem digit_ofNat {n : Nat} (h : n < 10) : digitVal (UInt8.ofNat (48 + n)) = n := by
  have : ∀ k : Fin 10, digitVal (UInt8.ofNat (48 + k)) = k := by decide
  exact this ⟨n, h⟩

theorem value_snoc (base : Nat) (c : UInt8) : ∀ ds : List UInt8, value base (ds ++ [c]) = value base ds * base + digitVal c
  | [] => by simp [value]
  | d :: ds => by
    rw [List.cons_append, value, value_snoc base c ds, value, List.length_append, List.length_singleton, Nat.pow_succ, Nat.add_mul]
    rw [Nat.mul_assoc, Nat.add_assoc]

theorem decimal_digits (n : Nat) : Digits 10 (decimal n) n := by
  induction n using Nat.strongRecOn with
  | _ n ih =>
    rw [decimal]
    split
    · next h => exact ⟨by simp, fun c hc => by rw [List.mem_singleton.1 hc, digit_ofNat h]; exact h, by rw [value, digit_ofNat h]; simp [value]⟩
    · next h =>
      have h1 := ih (n / 10) (by omega)
      have hm : n % 10 < 10 := Nat.mod_lt _ (by omega)
      refine ⟨by simp, ?_, ?_⟩
      · intro c hc
        rcases List.mem_append.1 hc with hc | hc
        · exact h1.digit c hc
        · rw [List.mem_singleton.1 hc, digit_ofNat hm]; exact hm
      · rw [value_snoc, h1.value, digit_ofNat hm]; omega

theorem two_d2 {i : Int} (h0 : 0 ≤ i) (h : i < 100) : two i = d2 i := by
  obtain ⟨n, rfl⟩ : ∃ n : Nat, i = n := ⟨i.toNat, by omega⟩
  have : ∀ k : Fin 100, two (k.val : Int) = d2 (k.val : Int) := by decide +kernel
  exact this ⟨n, by omega⟩

theorem days_eq {n : Int} (h0 : 0 ≤ n) (h : n ≤ 6) : days.getD n.toNat [] = dayName n := by
  obtain ⟨k, rfl⟩ : ∃ k : Nat, n = k := ⟨n.toNat, by omega⟩
  have : ∀ k : Fin 7, days.getD (k.val : Int).toNat [] = dayName (k.val : Int) := by decide +kernel
  exact this ⟨k, by omega⟩

theorem months_eq {n : Int} (h0 : 1 ≤ n) (h : n ≤ 12) : months.getD (n - 1).toNat [] = monthName n := by
  obtain ⟨k, rfl⟩ : ∃ k : Nat, n = (k : Int) + 1 := ⟨(n - 1).toNat, by omega⟩
  have : ∀ k : Fin 12, months.getD ((k.val : Int) + 1 - 1).toNat [] = monthName ((k.val : Int) + 1) := by decide +kernel
  exact this ⟨k, by omega⟩

theorem monthLen_le (y m : Int) : Time.Spec.monthLen y m ≤ 31 := by
  unfold Time.Spec.monthLen
  repeat' split
  all_goals omega

theorem getDate_eq (now : Int) : ∃ t, getDate now = some (some t) ∧ DateOf now t := by
  obtain ⟨tm, h1, ⟨h2, a1, a2, a3, a4, a5, a6⟩, h3, h4, _⟩ := Time.togm_correct now
  have h2' := h2
  obtain ⟨m1, m2, d1, d3⟩ := h2'
  have := monthLen_le tm.year tm.month
  rw [getDate, h1, Option.map_some, if_neg (by omega), if_neg (by omega), days_eq (by omega) (by omega), months_eq m1 m2, two_d2 (by omega) (by omega), two_d2 a1 (by omega),
    two_d2 a3 (by omega), two_d2 a5 (by omega), h4]
  refine ⟨_, rfl, tm.year, tm.month, tm.day, tm.hour, tm.min, tm.sec, h2, ⟨a1, a2⟩, ⟨a3, a4⟩, ⟨a5, a6⟩, h3, intText tm.year, ?_, ?_⟩
  · unfold intText
    split
    · next h => exact Or.inr ⟨h, _, rfl, decimal_digits _⟩
    · next h => exact Or.inl ⟨by omega, decimal_digits _⟩
  · simp [sGmt]

theorem partText_one (t : List UInt8) : partText ⟨t, []⟩ = t := rfl
theorem field_one (name text : List UInt8) : (one name text).field = ⟨name, [text]⟩ := rfl
theorem text_one (name text : List UInt8) : (one name text).text = text := rfl

theorem good_one {name text : List UInt8} (h1 : name ≠ []) (h2 : ∀ c ∈ name, c ≠ 0 ∧ c ≠ 58 ∧ isSpace c = false) (h3 : name.length < 2 ^ 64) (h4 : text ≠ []) (h5 : NoOuter text)
    (h6 : ∀ c ∈ text, c ≠ 0 ∧ c ≠ 13 ∧ c ≠ 59) (h7 : ¬ (⟨name, [text]⟩ : Field).whole → (44 : UInt8) ∉ text) : (one name text).Good := by
  refine ⟨⟨h1, h2, by simp [one, Hdr.field], ?_, ?_, ?_⟩, h3, fun _ => rfl, ?_, List.pairwise_singleton _ _⟩
  · intro p hp
    rw [field_one, List.mem_singleton] at hp
    rw [hp]; exact ⟨h4, h5⟩
  · intro p hp c hc
    rw [field_one, List.mem_singleton] at hp
    rw [hp] at hc
    exact ⟨(h6 c hc).1, (h6 c hc).2.1⟩
  · intro hw p hp
    rw [field_one, List.mem_singleton] at hp
    rw [hp]; exact h7 hw
  · intro p hp
    rw [one, List.mem_singleton] at hp
    subst hp
    exact ⟨h4, h5, fun hc => (h6 59 hc).2.2 rfl, by simp, by simp, by simp, List.Pairwise.nil⟩

theorem digits_bytes {ds : List UInt8} {n : Nat} (h : Digits 10 ds n) : ∀ c ∈ ds, isSpace c = false ∧ c ≠ 0 ∧ c ≠ 13 ∧ c ≠ 44 ∧ c ≠ 59 := by
  intro c hc
  have := digit_plain (base := 10) (by omega) (h.digit c hc)
  exact ⟨this.1, this.2.2.2.2.1, this.2.2.2.2.2.1, this.2.2.2.2.2.2.1, this.2.2.2.2.2.2.2.1⟩

theorem outer_all {s : List UInt8} (h : ∀ c ∈ s, isSpace c = false) : NoOuter s :=
  ⟨fun c t e => h c (by simp [e]), fun c t e => h c (by simp [e])⟩

theorem good_length {ds : List UInt8} {n : Nat} (h : Digits 10 ds n) : (one cLength ds).Good :=
  good_one (by decide) (by decide) (by decide) h.ne (outer_all fun c hc => (digits_bytes h c hc).1)
    (fun c hc => ⟨(digits_bytes h c hc).2.1, (digits_bytes h c hc).2.2.1, (digits_bytes h c hc).2.2.2.2⟩) fun _ hc => (digits_bytes h 44 hc).2.2.2.1 rfl

theorem good_default (cs : List UInt8) : (defaultType cs).Good := by
  unfold defaultType
  split <;> exact good_one (by decide) (by decide) (by decide) (by decide) (by decide) (by decide) (by decide)

theorem d2_bytes {n : Int} (h0 : 0 ≤ n) (h : n < 100) : ∀ c ∈ d2 n, c ≠ 0 ∧ c ≠ 13 ∧ c ≠ 59 := by
  obtain ⟨k, rfl⟩ : ∃ k : Nat, n = k := ⟨n.toNat, by omega⟩
  have : ∀ k : Fin 100, ∀ c ∈ d2 (k.val : Int), c ≠ 0 ∧ c ≠ 13 ∧ c ≠ 59 := by decide +kernel
  exact this ⟨k, by omega⟩

theorem dayName_bytes (n : Int) : (∃ c t, dayName n = c :: t ∧ isSpace c = false) ∧ ∀ c ∈ dayName n, c ≠ 0 ∧ c ≠ 13 ∧ c ≠ 59 := by
  unfold dayName
  repeat' split
  all_goals exact ⟨⟨_, _, rfl, by decide⟩, by decide⟩

theorem monthName_bytes (n : Int) : ∀ c ∈ monthName n, c ≠ 0 ∧ c ≠ 13 ∧ c ≠ 59 := by
  unfold monthName
  repeat' split
  all_goals decide

theorem good_date {now : Int} {t : List UInt8} (h : DateOf now t) : (one cDate t).Good := by
  obtain ⟨year, month, day, hour, min, sec, ⟨m1, m2, d1, d3⟩, ⟨b1, b2⟩, ⟨b3, b4⟩, ⟨b5, b6⟩, _, y, hy, rfl⟩ := h
  have := monthLen_le year month
  obtain ⟨⟨c0, t0, e0, hc0⟩, hd⟩ := dayName_bytes ((now / 86400 + 4) % 7)
  have hyb : ∀ c ∈ y, c ≠ 0 ∧ c ≠ 13 ∧ c ≠ 59 := by
    intro c hc
    rcases hy with ⟨_, hy⟩ | ⟨_, z, rfl, hz⟩
    · have := digits_bytes hy c hc
      exact ⟨this.2.1, this.2.2.1, this.2.2.2.2⟩
    · rcases List.mem_cons.1 hc with rfl | hc
      · decide
      · have := digits_bytes hz c hc
        exact ⟨this.2.1, this.2.2.1, this.2.2.2.2⟩
  have g1 := d2_bytes (n := day) (by omega) (by omega)
  have g2 := d2_bytes (n := hour) (by omega) (by omega)
  have g3 := d2_bytes (n := min) (by omega) (by omega)
  have g4 := d2_bytes (n := sec) (by omega) (by omega)
  have g5 := monthName_bytes month
  refine good_one (by decide) (by decide) (by decide) (by simp) ⟨?_, ?_⟩ ?_ (fun hw => absurd (by decide : Is cDate nDate) fun hn => hw (Or.inr (Or.inr (Or.inr hn))))
  · intro c t e
    rw [e0] at e
    simp only [List.cons_append, List.cons.injEq] at e
    rw [← e.1]; exact hc0
  · intro c t e
    have := congrArg List.getLast? e
    simp only [List.getLast?_append, List.getLast?_singleton] at this
    simp at this
    subst this; decide
  · intro c hc
    simp only [List.mem_append] at hc
    have hl : ∀ l : List UInt8, (l.all fun c => decide (c ≠ 0 ∧ c ≠ 13 ∧ c ≠ 59)) = true → c ∈ l → c ≠ 0 ∧ c ≠ 13 ∧ c ≠ 59 := by
      intro l hl hc
      simpa using List.all_eq_true.1 hl c hc
    rcases hc with ((((((((((((hc | hc) | hc) | hc) | hc) | hc) | hc) | hc) | hc) | hc) | hc) | hc) | hc) | hc
    · exact hd c hc
    · exact hl _ (by decide) hc
    · exact g1 c hc
    · exact hl _ (by decide) hc
    · exact g5 c hc
    · exact hl _ (by decide) hc
    · exact hyb c hc
    · exact hl _ (by decide) hc
    · exact g2 c hc
    · exact hl _ (by decide) hc
    · exact g3 c hc
    · exact hl _ (by decide) hc
    · exact g4 c hc
    · exact hl _ (by decide) hc

/-! ### The character set -/

theorem tput_spec (cs : List UInt8) (ms : List (List UInt8 × List UInt8)) : tput cCharset cs ms = charsetMods cs ms := by
  unfold tput charsetMods
  rw [if_neg (by decide)]
  by_cases h : ∃ m ∈ ms, Alike m.1 cCharset
  · rw [if_pos h, if_pos (by obtain ⟨m, h1, h2⟩ := h; exact List.any_eq_true.2 ⟨m, h1, same_iff.2 h2⟩)]
    apply List.map_congr_left
    intro m _
    by_cases hm : Alike m.1 cCharset
    · rw [if_pos (same_iff.2 hm), if_pos hm]
    · rw [if_neg (by rw [same_iff]; exact hm), if_neg hm]
  · rw [if_neg h, if_neg (by
      intro ha
      obtain ⟨m, h1, h2⟩ := List.any_eq_true.1 ha
      exact h ⟨m, h1, same_iff.1 h2⟩)]

theorem pair_eq {t : List (List UInt8 × List UInt8)} (hd : t.Pairwise fun a b => ¬ Alike a.1 b.1) {a b : List UInt8 × List UInt8} (ha : a ∈ t) (hb : b ∈ t) (h : Alike a.1 b.1) : a = b := by
  induction t with
  | nil => cases ha
  | cons x t ih =>
    have := List.pairwise_cons.1 hd
    rcases List.mem_cons.1 ha with e | ha' <;> rcases List.mem_cons.1 hb with e' | hb'
    · rw [e, e']
    · rw [e] at h; exact absurd h (this.1 b hb')
    · rw [e'] at h; exact absurd h.symm (this.1 a ha')
    · exact ih this.2 ha' hb'

/-- Putting in what is there changes nothing. -/
theorem tput_same {t : List (List UInt8 × List UInt8)} (hd : t.Pairwise fun a b => ¬ Alike a.1 b.1) {m : List UInt8 × List UInt8} (hm : m ∈ t) : tput m.1 m.2 t = t := by
  unfold tput
  split
  · rfl
  · rw [if_pos (List.any_eq_true.2 ⟨m, hm, same_iff.2 rfl⟩)]
    conv => rhs; rw [← List.map_id t]
    apply List.map_congr_left
    intro e he
    split
    · next hs =>
      have := pair_eq hd he hm (same_iff.1 hs)
      rw [this]; rfl
    · rfl

theorem fold_same {t : List (List UInt8 × List UInt8)} (hd : t.Pairwise fun a b => ¬ Alike a.1 b.1) : ∀ l : List (List UInt8 × List UInt8), (∀ m ∈ l, m ∈ t) → l.foldl (fun ms m => tput m.1 m.2 ms) t = t
  | [], _ => rfl
  | m :: l, h => by
    rw [List.foldl_cons, tput_same hd (h m (by simp))]
    exact fold_same hd l fun x hx => h x (by simp [hx])

theorem charset_distinct {cs : List UInt8} {ms : List (List UInt8 × List UInt8)} (hd : ms.Pairwise fun a b => ¬ Alike a.1 b.1) : (charsetMods cs ms).Pairwise fun a b => ¬ Alike a.1 b.1 := by
  unfold charsetMods
  split
  · rw [List.pairwise_map]
    refine hd.imp ?_
    intro a b hab
    split <;> split <;> exact hab
  · next h =>
    refine List.pairwise_append.2 ⟨hd, List.pairwise_singleton _ _, ?_⟩
    intro a ha b hb
    rw [List.mem_singleton.1 hb]
    exact fun hh => h ⟨a, ha, hh⟩

/-- Merging the modifiers with the new character set into the old ones gives the new ones. -/
theorem charset_fold {cs : List UInt8} {ms : List (List UInt8 × List UInt8)} (hd : ms.Pairwise fun a b => ¬ Alike a.1 b.1) (hn : ∀ m ∈ ms, m.1 ≠ []) :
    (charsetMods cs ms).foldl (fun ms m => tput m.1 m.2 ms) ms = charsetMods cs ms := by
  by_cases h : ∃ m ∈ ms, Alike m.1 cCharset
  · obtain ⟨m, hm, ha⟩ := h
    obtain ⟨a, b, e⟩ := List.append_of_mem hm
    have hne : ∀ x ∈ a ++ b, ¬ Alike x.1 cCharset := by
      intro x hx hxa
      rw [e] at hd
      have hp := List.pairwise_append.1 hd
      rcases List.mem_append.1 hx with hx | hx
      · exact hp.2.2 x hx m (by simp) (hxa.trans ha.symm)
      · exact (List.pairwise_cons.1 hp.2.1).1 x hx (ha.trans hxa.symm)
    have hid : ∀ l : List (List UInt8 × List UInt8), (∀ x ∈ l, ¬ Alike x.1 cCharset) → (l.map fun m => if Alike m.1 cCharset then (m.1, cs) else m) = l := by
      intro l hl
      conv => rhs; rw [← List.map_id l]
      apply List.map_congr_left
      intro x hx
      rw [if_neg (hl x hx)]; rfl
    have ec : charsetMods cs ms = a ++ (m.1, cs) :: b := by
      unfold charsetMods
      rw [if_pos ⟨m, hm, ha⟩, e, List.map_append, List.map_cons, if_pos ha, hid a fun x hx => hne x (by simp [hx]), hid b fun x hx => hne x (by simp [hx])]
    have hd' := charset_distinct (cs := cs) hd
    have et : tput m.1 cs ms = charsetMods cs ms := by
      unfold tput charsetMods
      rw [if_neg (hn m hm), if_pos (List.any_eq_true.2 ⟨m, hm, same_iff.2 rfl⟩), if_pos ⟨m, hm, ha⟩]
      apply List.map_congr_left
      intro x _
      have : same x.1 m.1 = true ↔ Alike x.1 cCharset := by
        rw [same_iff]; exact ⟨fun hh => hh.trans ha, fun hh => hh.trans ha.symm⟩
      by_cases hx : Alike x.1 cCharset
      · rw [if_pos (this.2 hx), if_pos hx]
      · rw [if_neg (fun hh => hx (this.1 hh)), if_neg hx]
    conv => lhs; arg 3; rw [ec]
    rw [List.foldl_append, fold_same hd a (fun x hx => by rw [e]; simp [hx]), List.foldl_cons]
    simp only [et]
    exact fold_same hd' b fun x hx => by rw [ec]; simp [hx]
  · have ec : charsetMods cs ms = ms ++ [(cCharset, cs)] := by unfold charsetMods; rw [if_neg h]
    conv => lhs; arg 3; rw [ec]
    rw [List.foldl_append, fold_same hd ms fun _ hx => hx, List.foldl_cons, List.foldl_nil]
    exact tput_spec cs ms

theorem addMod_charset {ms : List (List UInt8 × List UInt8)} {cs : List UInt8} (hne : cs ≠ []) (ho : NoOuter cs) (hb : ∀ c ∈ cs, c ≠ 0 ∧ c ≠ 61) :
    addMod ms (32 :: (vCharset ++ cs)) = some (charsetMods cs ms) := by
  have := Str.explode_join 61 [32 :: cCharset, cs] (by
    intro x hx
    simp only [List.mem_cons, List.not_mem_nil, or_false] at hx
    rcases hx with rfl | rfl
    · decide
    · exact fun hc => (hb 61 hc).2 rfl) (by
      simp only [join, List.mem_append, not_or]
      exact ⟨by decide, fun hc => (hb 0 hc).1 rfl⟩) (by simp [join])
  have e : 32 :: (vCharset ++ cs) = join [61] [32 :: cCharset, cs] := by simp [join, vCharset, cCharset]
  rw [addMod, e, this]
  simp only
  rw [trim_space (by decide), Str.trim_eq ho, tput_spec]

/-- The text with the character set is taken apart. -/
theorem splitValue_charset {p : HVal} {cs : List UInt8} (h : PartGood p) (h0 : ∀ c ∈ partText p, c ≠ 0) (hne : cs ≠ []) (ho : NoOuter cs) (hb : ∀ c ∈ cs, c ≠ 0 ∧ c ≠ 59 ∧ c ≠ 61) :
    splitValue (partText p ++ [59, 32] ++ (vCharset ++ cs)) = some (some ⟨p.value, charsetMods cs p.mods⟩) := by
  have hm0 : ∀ m ∈ p.mods, ∀ c ∈ m.1 ++ m.2, c ≠ 0 := by
    intro m hm c hc
    apply h0
    rw [partText_eq]
    refine mem_join (p := modSpec m) (List.mem_cons_of_mem _ (List.mem_map_of_mem hm)) ?_
    unfold modSpec
    split
    · next hv => simpa [hv] using hc
    · simp only [List.mem_append] at hc ⊢
      rcases hc with hc | hc <;> simp [hc]
  have jsnoc : ∀ (d : List UInt8) (xs : List (List UInt8)) (x y : List UInt8), join d (x :: xs) ++ d ++ y = join d (x :: (xs ++ [y])) := by
    intro d xs
    induction xs with
    | nil => intro x y; simp [join]
    | cons z zs ih =>
      intro x y
      rw [Str.join_cons d x (by simp), List.cons_append, Str.join_cons d x (by simp), ← ih]
      simp
  have e : partText p ++ [59, 32] ++ (vCharset ++ cs) = join [59] (p.value :: ((p.mods.map fun m => 32 :: modSpec m) ++ [32 :: (vCharset ++ cs)])) := by
    rw [partText_eq, join_space, List.map_map, ← jsnoc]
    simp [Function.comp_def]
  rw [splitValue, if_neg (by simp)]
  have hx := Str.explode_join 59 (p.value :: ((p.mods.map fun m => 32 :: modSpec m) ++ [32 :: (vCharset ++ cs)])) (by
    intro x hx
    simp only [List.mem_cons, List.mem_append, List.mem_map, List.not_mem_nil, or_false] at hx
    rcases hx with rfl | ⟨m, hm, rfl⟩ | rfl
    · exact h.valueByte
    · have hb := h.modByte m hm
      simp only [List.mem_cons, not_or]
      refine ⟨by decide, ?_⟩
      unfold modSpec
      split
      · exact fun hc => (hb 59 (by simp [hc])).1 rfl
      · simp only [List.mem_append, List.mem_singleton, not_or]
        exact ⟨⟨fun hc => (hb 59 (by simp [hc])).1 rfl, by decide⟩, fun hc => (hb 59 (by simp [hc])).1 rfl⟩
    · simp only [List.mem_cons, List.mem_append, not_or]
      exact ⟨by decide, by decide, fun hc => (hb 59 hc).2.1 rfl⟩) (by
      rw [← e]
      simp only [List.mem_append, not_or]
      exact ⟨⟨fun hc => h0 0 hc rfl, by decide⟩, by decide, fun hc => (hb 0 hc).1 rfl⟩)
    (by rw [← e]; simp)
  rw [e, hx]
  simp only
  have := foldMods p.mods [] h.name h.modOuter (fun m hm c hc => ⟨hm0 m hm c hc, (h.modByte m hm c hc).2⟩) (by simpa using h.distinct)
  rw [List.foldlM_append, this, Str.trim_eq h.valueOuter]
  simp only [Option.bind_eq_bind, Option.bind_some, List.nil_append, List.foldlM_cons, List.foldlM_nil]
  rw [addMod_charset hne ho fun c hc => ⟨(hb c hc).1, (hb c hc).2.2⟩]
  rfl

theorem partText_head {p : HVal} (h : PartGood p) : ∃ c t, partText p = c :: t ∧ isSpace c = false := by
  obtain ⟨r, hr⟩ := join_head (d := [59, 32]) (x := p.value) (ps := p.mods.map modSpec)
  cases hv : p.value with
  | nil => exact absurd hv h.value
  | cons c t =>
    rw [hv] at hr
    rw [partText_eq, hv, hr]
    exact ⟨c, t ++ r, rfl, h.valueOuter.1 c t hv⟩

theorem outer_charset {p : HVal} (h : PartGood p) {cs : List UInt8} (hne : cs ≠ []) (ho : NoOuter cs) : NoOuter (partText p ++ [59, 32] ++ (vCharset ++ cs)) := by
  obtain ⟨c, t, e, hc⟩ := partText_head h
  refine ⟨fun x u e' => ?_, fun x u e' => ?_⟩
  · rw [e] at e'
    simp only [List.cons_append, List.cons.injEq] at e'
    rw [← e'.1]; exact hc
  · have e2 := List.dropLast_concat_getLast hne
    rw [← e2, ← List.append_assoc, ← List.append_assoc] at e'
    have := (List.append_inj' e' rfl).2
    simp only [List.cons.injEq, and_true] at this
    rw [← this]
    exact ho.2 _ _ e2.symm

/-- The header gets the character set. -/
theorem update_charset {x : Hdr} (h : x.Good) (hw : x.field.whole) {cs : List UInt8} (hne : cs ≠ []) (ho : NoOuter cs) (hb : ∀ c ∈ cs, c ≠ 0 ∧ c ≠ 59 ∧ c ≠ 61) :
    update ⟨x.name, x.parts⟩ (x.text ++ [59, 32] ++ (vCharset ++ cs)) = some (true, ⟨x.name, (x.withCharset cs).parts⟩) := by
  obtain ⟨p, hp, ht⟩ := whole_one h hw
  have hpg : PartGood p := h.part p (by simp [hp])
  have h0 := part_bytes h p (by simp [hp])
  rw [← ht, update, if_neg (by simp)]
  have es : splitVals x.name (partText p ++ [59, 32] ++ (vCharset ++ cs)) = some (some [partText p ++ [59, 32] ++ (vCharset ++ cs)]) := by
    unfold splitVals
    rw [if_pos ((nosplit_hdr h).2 hw), Str.trim_eq (outer_charset hpg hne ho)]
  simp only [es, List.foldlM_cons, List.foldlM_nil, addValues, splitValue_charset hpg h0 hne ho hb]
  unfold Hdr.withCharset
  rw [if_neg hne, hp]
  have ev : addValue [p] ⟨p.value, charsetMods cs p.mods⟩ = [⟨p.value, charsetMods cs p.mods⟩] := by
    unfold addValue
    rw [if_pos (List.any_eq_true.2 ⟨p, by simp, same_iff.2 rfl⟩)]
    simp only [List.map_cons, List.map_nil, if_pos (same_iff.2 (rfl : Alike p.value p.value)), charset_fold hpg.distinct hpg.name]
  simp [ev]

end Verif.Http.Frame
