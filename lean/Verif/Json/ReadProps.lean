import Verif.Json.Spec
import Verif.Decimal.TextProps
/-! C48, reading: every JSON text of the part of the grammar the reader handles is read as the value it stands for. -/
namespace Verif.Json
open Verif.Num (digitVal value)
open Verif.Utf8 (utf8 Scalar Allowed)

/-- The part of the grammar the reader handles: numbers without exponent and with at most 18 decimals that fit 64 bits when the
decimals are counted, escapes of code points the library allows and that are not NUL, no surrogate pairs, and objects with
distinct names that are not empty.  Comments are an extension that a flag disallows. -/
def readable (fl : RFlags) : Grammar where
  skip w := if fl.noComments then Blank w else Comments w
  sep s := s = [44]
  str := StrBody (fun cp => Allowed cp ∧ cp ≠ 0) False
  num t v := ∃ p : NumParts, p.Ok ∧ t = p.text ∧ IsNum p.val v ∧ p.exp = none ∧ p.fs.length ≤ 18 ∧
    Decimal.Fits (Num.signed p.neg (value 10 (p.ds ++ p.fs)))
  build ms l := l = ms ∧ (ms.map (·.1)).Nodup ∧ [] ∉ ms.map (·.1)

/-! ### White space and comments -/

theorem blank_space {c : UInt8} (h : c = 32 ∨ c = 9 ∨ c = 10 ∨ c = 13) : Chr.isSpace c = true := by
  rcases h with rfl | rfl | rfl | rfl <;> decide

/-- Data the reader does not skip. -/
def Solid (r : List UInt8) : Prop := ∀ c q, r = c :: q → Chr.isSpace c = false ∧ c ≠ 47

theorem eatWs_blank {w r : List UInt8} (hw : Blank w) (hr : Solid r) : eatWs (w ++ r) = r := by
  induction hw with
  | nil =>
    cases r with
    | nil => rfl
    | cons c r => simp [eatWs, (hr c r rfl).1]
  | @cons c w h _ ih =>
    have : eatWs (c :: w ++ r) = eatWs (w ++ r) := by simp [eatWs, blank_space h]
    rw [this, ih]

theorem eatWs_solid {r : List UInt8} (hr : Solid r) : eatWs r = r := eatWs_blank .nil hr

theorem eatWs_idem (p : List UInt8) : eatWs (eatWs p) = eatWs p := by
  unfold eatWs
  induction p with
  | nil => rfl
  | cons c p ih =>
    by_cases h : Chr.isSpace c = true
    · rw [List.dropWhile_cons_of_pos h]; exact ih
    · rw [List.dropWhile_cons_of_neg h, List.dropWhile_cons_of_neg h]

theorem eatWs_length (p : List UInt8) : (eatWs p).length ≤ p.length := by
  unfold eatWs
  exact (List.dropWhile_sublist _).length_le

theorem afterClose_block {b w : List UInt8} (h : ∀ x y, b ++ [42] ≠ x ++ 42 :: 47 :: y) : afterClose (b ++ 42 :: 47 :: w) = some w := by
  induction b with
  | nil => rfl
  | cons c b ih =>
    have ih := ih (fun x y e => h (c :: x) y (by rw [List.cons_append, e]; rfl))
    rw [List.cons_append]
    by_cases hc : c = 42
    · subst hc
      cases b with
      | nil => rw [List.nil_append, afterClose]; exact ih; simp
      | cons d b =>
        have hd : d ≠ 47 := by
          rintro rfl
          exact h [] (b ++ [42]) rfl
        rw [List.cons_append] at ih ⊢
        rw [afterClose]
        · exact ih
        · intro r _ e; exact hd (List.cons.inj e).1
    · rw [afterClose]
      · exact ih
      · intro r e; exact absurd e hc

theorem afterEol_line {b w : List UInt8} (h : (10 : UInt8) ∉ b) : afterEol (b ++ 10 :: w) = w := by
  unfold afterEol
  rw [List.dropWhile_append_of_pos (by intro c hc; simpa using fun e : c = 10 => h (e ▸ hc))]
  simp

/-- Comments, cut after the white space in front. -/
theorem comments_cases {w : List UInt8} (hw : Comments w) (r : List UInt8) (hr : Solid r) :
    eatWs (w ++ r) = r ∨ ∃ q w', (∃ w0, Comments w0 ∧ w0 ++ r = 47 :: q) ∧ eatWs (w ++ r) = 47 :: q ∧ eatComment (47 :: q) = .ok (w' ++ r) ∧ Comments w' ∧ (w' ++ r).length < (47 :: q).length := by
  induction hw with
  | nil => exact Or.inl (eatWs_solid hr)
  | @blank c w h _ ih =>
    have : eatWs (c :: w ++ r) = eatWs (w ++ r) := by simp [eatWs, blank_space h]
    rw [this]
    exact ih
  | @block b w h hw _ =>
    refine Or.inr ⟨42 :: (b ++ 42 :: 47 :: (w ++ r)), w, ⟨_, .block h hw, by simp⟩, ?_, ?_, hw, ?_⟩
    · simp [eatWs, Chr.isSpace]
    · simp [eatComment, afterClose_block h]
    · simp; omega
  | @line b w h hw _ =>
    refine Or.inr ⟨47 :: (b ++ 10 :: (w ++ r)), w, ⟨_, .line h hw, by simp⟩, ?_, ?_, hw, ?_⟩
    · simp [eatWs, Chr.isSpace]
    · have : afterEol (47 :: 47 :: (b ++ 10 :: (w ++ r))) = w ++ r := by
        have := afterEol_line (b := 47 :: 47 :: b) (w := w ++ r) (by simp [h])
        exact this
      simp [eatComment, this]
    · simp; omega

theorem eatLoop_comments (n : Nat) : ∀ {w r : List UInt8}, Comments w → Solid r → ∀ fuel, (w ++ r).length ≤ n → n < fuel →
    eatLoop fuel (w ++ r) = some (.ok r) := by
  induction n using Nat.strongRecOn with
  | _ n ih =>
  intro w r hw hr fuel hn hf
  obtain ⟨f, rfl⟩ : ∃ f, fuel = f + 1 := ⟨fuel - 1, by omega⟩
  rw [eatLoop]
  rcases comments_cases hw r hr with e | ⟨q, w', _, e1, e2, hw', hlt⟩
  · rw [e]
    cases r with
    | nil => rfl
    | cons c r =>
      have h := hr c r rfl
      have : eatComment (c :: r) = .ok (c :: r) := by
        unfold eatComment
        split
        · rename_i h'; simp at h'; exact absurd h'.1 h.2
        · rfl
      simp only [this, List.length_cons, Nat.add_one_ne_zero, if_false, eatWs_solid hr]
      rw [if_neg (by simp [h.2])]
  · rw [e1]
    simp only [e2]
    have hle := eatWs_length (w ++ r)
    rw [e1] at hle
    by_cases h0 : (w' ++ r).length = 0
    · have : w' ++ r = [] := List.length_eq_zero_iff.1 h0
      have hr0 : r = [] := (List.append_eq_nil_iff.1 this).2
      rw [this, hr0]
      simp
    · simp only [h0, if_false]
      rcases comments_cases hw' r hr with e | ⟨q', w2, ⟨w0, g1, g2⟩, f1, f2, hw2, hlt2⟩
      · rw [e]
        split
        · rename_i hc
          cases r with
          | nil => simp at hc
          | cons c r => simp at hc; exact absurd hc.1 (hr c r rfl).2
        · rfl
      · rw [f1]
        have hle2 := eatWs_length (w' ++ r)
        rw [f1] at hle2
        rw [if_pos ⟨rfl, by omega⟩]
        rw [← g2]
        exact ih (47 :: q').length (by omega) g1 hr f (by rw [g2]; omega) (by omega)

/-- What the grammar lets one skip is skipped. -/
theorem eatIgnored_skip {fl : RFlags} {w r : List UInt8} (hw : (readable fl).skip w) (hr : Solid r) : eatIgnored fl (w ++ r) = some (.ok r) := by
  unfold eatIgnored
  simp only [readable] at hw
  split
  · rename_i h
    rw [if_pos h] at hw
    rw [eatWs_blank hw hr]
  · rename_i h
    rw [if_neg h] at hw
    exact eatLoop_comments _ hw hr _ (Nat.le_refl _) (Nat.lt_succ_self _)

theorem skip_nil (fl : RFlags) : (readable fl).skip [] := by
  simp only [readable]
  split
  · exact .nil
  · exact .nil

theorem eatIgnored_solid (fl : RFlags) {r : List UInt8} (hr : Solid r) : eatIgnored fl r = some (.ok r) :=
  eatIgnored_skip (w := []) (skip_nil fl) hr

/-! ### Strings -/

/-- The bytes of a character that needs no escape. -/
theorem utf8_plain {cp : Nat} (hs : Scalar cp) (h1 : 32 ≤ cp) (h2 : cp ≠ 34) (h3 : cp ≠ 92) : ∀ b ∈ utf8 cp, 32 ≤ b ∧ b ≠ 34 ∧ b ≠ 92 := by
  have hle := hs.1
  have key : ∀ n, n < 256 → 32 ≤ n → n ≠ 34 → n ≠ 92 → 32 ≤ UInt8.ofNat n ∧ UInt8.ofNat n ≠ 34 ∧ UInt8.ofNat n ≠ 92 := by
    have : ∀ n : Fin 256, 32 ≤ n.val → n.val ≠ 34 → n.val ≠ 92 → 32 ≤ UInt8.ofNat n.val ∧ UInt8.ofNat n.val ≠ 34 ∧ UInt8.ofNat n.val ≠ 92 := by decide +kernel
    intro n hn
    exact this ⟨n, hn⟩
  intro b hb
  unfold utf8 at hb
  split at hb
  · simp only [List.mem_singleton] at hb
    subst hb
    exact key _ (by omega) h1 h2 h3
  · split at hb
    · simp only [List.mem_cons, List.not_mem_nil, or_false] at hb
      rcases hb with rfl | rfl <;> exact key _ (by omega) (by omega) (by omega) (by omega)
    · split at hb
      · simp only [List.mem_cons, List.not_mem_nil, or_false] at hb
        rcases hb with rfl | rfl | rfl <;> exact key _ (by omega) (by omega) (by omega) (by omega)
      · simp only [List.mem_cons, List.not_mem_nil, or_false] at hb
        rcases hb with rfl | rfl | rfl | rfl <;> exact key _ (by omega) (by omega) (by omega) (by omega)

theorem strLoop_plain (fl : RFlags) (after : List UInt8) (u : List UInt8) : ∀ (r : List UInt8) fuel cp buf, (∀ b ∈ u, 32 ≤ b ∧ b ≠ 34 ∧ b ≠ 92) → cp ≠ 92 →
    ∃ cp', cp' ≠ 92 ∧ strLoop fl after (fuel + u.length) (u ++ r) cp buf = strLoop fl after fuel r cp' (buf ++ u) := by
  induction u with
  | nil => intro r fuel cp buf _ hc; exact ⟨cp, hc, by simp⟩
  | cons b u ih =>
    intro r fuel cp buf hu hc
    have hb := hu b List.mem_cons_self
    obtain ⟨cp', h1, h2⟩ := ih r fuel b (buf ++ [b]) (fun x hx => hu x (List.mem_cons_of_mem _ hx)) hb.2.2
    refine ⟨cp', h1, ?_⟩
    have h32 : ¬ b < 32 := UInt8.not_lt.2 hb.1
    have e : fuel + (b :: u).length = (fuel + u.length) + 1 := by simp only [List.length_cons]; omega
    rw [e, List.cons_append, strLoop.eq_def]
    simp only [hb.2.1, hc, h32, hb.2.2, if_false]
    rw [h2]
    simp

theorem hex_facts (c : UInt8) (h : digitVal c < 16) : Chr.isHex c = true ∧ c ≠ 0 ∧ Chr.isSpace c = false ∧ c ≠ 45 ∧ c ≠ 43 := by
  have : ∀ n : Fin 256, digitVal (UInt8.ofNat n.val) < 16 → Chr.isHex (UInt8.ofNat n.val) = true ∧ UInt8.ofNat n.val ≠ 0 ∧ Chr.isSpace (UInt8.ofNat n.val) = false ∧
    UInt8.ofNat n.val ≠ 45 ∧ UInt8.ofNat n.val ≠ 43 := by decide +kernel
  have := this ⟨c.toNat, c.toNat_lt⟩
  simp only [UInt8.ofNat_toNat] at this
  exact this h

theorem toUint32_hex4 {x : List UInt8} {n : Nat} (hx : Hex4 x n) (r : List UInt8) : Num.toUint32Ex (x ++ r) 4 16 = some (.success, some (n, r)) := by
  obtain ⟨hl, hd, rfl⟩ := hx
  match x, hl with
  | [a, b, c, d], _ =>
    have ha := hd a (by simp)
    have hb := hd b (by simp)
    have hc := hd c (by simp)
    have hd := hd d (by simp)
    have fa := hex_facts a ha
    have fb := hex_facts b hb
    have fc := hex_facts c hc
    have fd := hex_facts d hd
    have hpre : Num.hexPrefix ([a, b, c, d] ++ r) 4 = some false := by
      simp [Num.hexPrefix, Num.caseEqMax, Num.eqLoop, Num.zeroX, fa.2.1, fb.2.1, fc.2.1]
    have hprep : Num.prep ([a, b, c, d] ++ r) 4 16 = some ([a, b, c, d] ++ r, 4, 16, false) := by
      unfold Num.prep
      rw [List.cons_append, Num.eatWs, if_neg (by simp [fa.2.2.1])]
      simp only [bind, Option.bind_some]
      rw [Num.sign, if_neg (by decide)]
      simp only [List.getElem?_cons_zero, bind, Option.bind_some, fa.2.2.2.1, fa.2.2.2.2, or_self, if_false]
      rw [← List.cons_append, hpre]
      simp [Num.autoBase]
    have hv : value 16 [a, b, c, d] = ((digitVal a * 16 + digitVal b) * 16 + digitVal c) * 16 + digitVal d := by
      simp [value]; omega
    have hloop : Num.u64Loop 16 ([a, b, c, d] ++ r) 4 0 false = some (value 16 [a, b, c, d], false, r) := by
      rw [hv]
      simp only [List.cons_append, List.nil_append, Num.u64Loop, fa.2.1, fb.2.1, fc.2.1, fd.2.1, if_false, Num.digit_eq]
      have w : Num.w64 = 18446744073709551616 := rfl
      rw [if_neg (by omega), if_neg (by omega), if_neg (by omega), if_neg (by omega)]
      rw [Nat.mod_eq_of_lt (by omega : 0 * 16 + digitVal a < Num.w64)]
      rw [Nat.mod_eq_of_lt (by omega : (0 * 16 + digitVal a) * 16 + digitVal b < Num.w64)]
      rw [Nat.mod_eq_of_lt (by omega : ((0 * 16 + digitVal a) * 16 + digitVal b) * 16 + digitVal c < Num.w64)]
      rw [Nat.mod_eq_of_lt (by omega : (((0 * 16 + digitVal a) * 16 + digitVal b) * 16 + digitVal c) * 16 + digitVal d < Num.w64)]
      rw [decide_eq_false (by omega), decide_eq_false (by omega), decide_eq_false (by omega), decide_eq_false (by omega)]
      simp
    have hlt : value 16 [a, b, c, d] < 65536 := by omega
    have h64 : Num.toUint64Ex ([a, b, c, d] ++ r) 4 16 = some (.success, some (value 16 [a, b, c, d], r)) := by
      unfold Num.toUint64Ex
      rw [if_neg (by decide), hprep]
      simp only [bind, Option.bind_some]
      rw [Num.toUint64Int, if_neg (by decide), hloop]
      simp only [bind, Option.bind_some]
      rw [if_neg (by decide), if_neg (by simp only [List.length_append, List.length_cons, List.length_nil]; omega)]
      simp
    unfold Num.toUint32Ex
    rw [h64]
    simp only [bind, Option.bind_some]
    rw [if_neg (by omega)]

theorem hex4_lt {x : List UInt8} {n : Nat} (hx : Hex4 x n) : n < 65536 := by
  obtain ⟨hl, hd, rfl⟩ := hx
  match x, hl with
  | [a, b, c, d], _ =>
    have ha := hd a (by simp)
    have hb := hd b (by simp)
    have hc := hd c (by simp)
    have hd := hd d (by simp)
    simp [value]
    omega

theorem isHexMax_hex4 {x : List UInt8} {n : Nat} (hx : Hex4 x n) (r : List UInt8) : isHexMax 4 (x ++ r) = some true := by
  obtain ⟨hl, hd, _⟩ := hx
  match x, hl with
  | [a, b, c, d], _ =>
    have fa := hex_facts a (hd a (by simp))
    have fb := hex_facts b (hd b (by simp))
    have fc := hex_facts c (hd c (by simp))
    have fd := hex_facts d (hd d (by simp))
    simp [isHexMax, fa.1, fb.1, fc.1, fd.1]

theorem uniEscape_good {x t after : List UInt8} {cp : Nat} (hx : Hex4 x cp) (ha : Allowed cp) :
    uniEscape (92 :: 117 :: (x ++ t)) (x ++ t ++ after) = some (some (utf8 cp)) := by
  unfold uniEscape
  have hl := hx.1
  rw [if_neg (by simp; omega), List.append_assoc, isHexMax_hex4 hx, toUint32_hex4 hx]
  have h8 : (utf8 cp).length ≤ 8 := by unfold utf8; repeat' (first | split | simp)
  have := (Utf8.encode_correct 8 cp (utf8 cp)).2 ⟨ha, rfl, h8⟩
  simp [this]

theorem escapes_ok {e b : UInt8} (h : (e, b) ∈ escapes) : simpleEscape e = some b ∧ e ≠ 117 ∧ b ≠ 0 := by
  have : ∀ m ∈ escapes, simpleEscape m.1 = some m.2 ∧ m.1 ≠ 117 ∧ m.2 ≠ 0 := by decide
  exact this _ h

theorem strLoop_body {fl : RFlags} (hfl : fl.dontDecode = false) (after : List UInt8) {t s : List UInt8}
    (h : StrBody (fun cp => Allowed cp ∧ cp ≠ 0) False t s) : ∀ (rest : List UInt8) fuel cp buf, t.length < fuel → cp ≠ 92 →
    strLoop fl after fuel (t ++ 34 :: rest) cp buf = some (.ok (buf ++ s, rest)) := by
  induction h with
  | nil =>
    intro rest fuel cp buf hf _
    obtain ⟨f, rfl⟩ : ∃ f, fuel = f + 1 := ⟨fuel - 1, by omega⟩
    rw [List.nil_append, strLoop.eq_def]
    simp
  | @plain c t s hs h1 h2 h3 _ ih =>
    intro rest fuel cp buf hf hcp
    rw [List.length_append] at hf
    obtain ⟨cp', g1, g2⟩ := strLoop_plain fl after (utf8 c) (t ++ 34 :: rest) (fuel - (utf8 c).length) cp buf (utf8_plain hs h1 h2 h3) hcp
    rw [Nat.sub_add_cancel (by omega)] at g2
    rw [List.append_assoc, g2, ih _ _ _ _ (by omega) g1]
    simp
  | @two e b t s he _ ih =>
    intro rest fuel cp buf hf hcp
    simp only [List.length_cons] at hf
    obtain ⟨f, rfl⟩ : ∃ f, fuel = f + 1 := ⟨fuel - 1, by omega⟩
    have := escapes_ok he
    rw [List.cons_append, List.cons_append, strLoop.eq_def]
    simp only [this.1, hcp, if_false]
    rw [if_neg (by decide), if_neg (by decide), if_pos trivial, ih _ _ _ _ (by omega) (by split <;> simp_all)]
    simp
  | @uni x t s c hx hs he _ ih =>
    intro rest fuel cp buf hf hcp
    simp only [List.length_cons, List.length_append] at hf
    obtain ⟨f, rfl⟩ : ∃ f, fuel = f + 1 := ⟨fuel - 1, by omega⟩
    have hu := uniEscape_good (t := t ++ 34 :: rest) (after := after) hx he.1
    have hse : simpleEscape 117 = none := by decide
    rw [List.cons_append, List.cons_append, strLoop.eq_def]
    simp only [hse, hcp, if_false]
    rw [if_neg (by decide), if_neg (by decide), if_pos trivial, if_pos trivial, List.append_assoc, hu]
    simp only [Option.bind_some, hfl, Bool.false_eq_true, if_false]
    have hd : (x ++ (t ++ 34 :: rest)).drop 4 = t ++ 34 :: rest := by rw [← hx.1]; simp
    rw [hd, ih _ _ _ _ (by omega) (by decide)]
    simp
  | pair hp => exact hp.elim

theorem utf8_nz {cp : Nat} (h : cp ≠ 0) (hs : Scalar cp) : ∀ b ∈ utf8 cp, b ≠ 0 := by
  have hle := hs.1
  have key : ∀ n, n < 256 → n ≠ 0 → UInt8.ofNat n ≠ 0 := by
    have : ∀ n : Fin 256, n.val ≠ 0 → UInt8.ofNat n.val ≠ 0 := by decide +kernel
    intro n hn
    exact this ⟨n, hn⟩
  intro b hb
  unfold utf8 at hb
  split at hb
  · simp only [List.mem_singleton] at hb
    subst hb
    exact key _ (by omega) h
  · split at hb
    · simp only [List.mem_cons, List.not_mem_nil, or_false] at hb
      rcases hb with rfl | rfl <;> exact key _ (by omega) (by omega)
    · split at hb
      · simp only [List.mem_cons, List.not_mem_nil, or_false] at hb
        rcases hb with rfl | rfl | rfl <;> exact key _ (by omega) (by omega)
      · simp only [List.mem_cons, List.not_mem_nil, or_false] at hb
        rcases hb with rfl | rfl | rfl | rfl <;> exact key _ (by omega) (by omega)

theorem body_nz {t s : List UInt8} (h : StrBody (fun cp => Allowed cp ∧ cp ≠ 0) False t s) : (0 : UInt8) ∉ s := by
  induction h with
  | nil => simp
  | @plain c t s hs h1 _ _ _ ih => intro hm; rcases List.mem_append.1 hm with hm | hm; exact utf8_nz (by omega) hs _ hm rfl; exact ih hm
  | two he _ ih => intro hm; rcases List.mem_cons.1 hm with hm | hm; exact (escapes_ok he).2.2 hm.symm; exact ih hm
  | uni _ hs he _ ih => intro hm; rcases List.mem_append.1 hm with hm | hm; exact utf8_nz he.2 hs _ hm rfl; exact ih hm
  | pair hp => exact hp.elim

theorem readString_body {fl : RFlags} (hfl : fl.dontDecode = false) (after : List UInt8) {t s : List UInt8} (h : (readable fl).str t s) (rest : List UInt8) :
    readString fl after (t ++ 34 :: rest) = some (.ok (s, rest)) := by
  unfold readString
  rw [strLoop_body hfl after h rest _ 0 [] (by simp only [List.length_append]; omega) (by decide)]
  have hz := body_nz h
  have : ∀ l : List UInt8, (0 : UInt8) ∉ l → l.takeWhile (· ≠ 0) = l := by
    intro l
    induction l with
    | nil => intro _; rfl
    | cons c l ih =>
      intro h
      simp only [List.mem_cons, not_or] at h
      rw [List.takeWhile_cons_of_pos (by simpa using fun e : c = 0 => h.1 e.symm), ih h.2]
  simp only [Res.andThen, List.nil_append, this s hz]

/-! ### Numbers -/

theorem lowest_le {a b : Int} {i j : Nat} (h : a * 10 ^ j = b * 10 ^ i) (hb : j = 0 ∨ ¬ (10 : Int) ∣ b) : j ≤ i := by
  apply Classical.byContradiction
  intro hn
  have e : (10 : Int) ^ j = 10 ^ (j - i) * 10 ^ i := by rw [← Int.pow_add]; congr 1; omega
  rw [e, ← Int.mul_assoc] at h
  have hpos : (10 : Int) ^ i ≠ 0 := Int.pow_ne_zero (by decide)
  have h := Int.eq_of_mul_eq_mul_right hpos h
  rcases hb with hb | hb
  · omega
  · apply hb
    rw [← h, show j - i = (j - i - 1) + 1 by omega, Int.pow_succ, ← Int.mul_assoc]
    exact Int.dvd_mul_left _ _

/-- Decimals in lowest terms are determined by their value. -/
theorem lowest_unique {a b : Int} {i j : Nat} (h : mkRat a (10 ^ i) = mkRat b (10 ^ j)) (ha : i = 0 ∨ ¬ (10 : Int) ∣ a) (hb : j = 0 ∨ ¬ (10 : Int) ∣ b) : i = j ∧ a = b := by
  have p : ∀ n : Nat, (10 : Nat) ^ n ≠ 0 := fun n => Nat.pos_iff_ne_zero.1 (Nat.pow_pos (by decide))
  rw [Rat.mkRat_eq_iff (p i) (p j)] at h
  have h : a * 10 ^ j = b * 10 ^ i := by simpa using h
  have e : i = j := Nat.le_antisymm (lowest_le h.symm ha) (lowest_le h hb)
  subst e
  exact ⟨rfl, Int.eq_of_mul_eq_mul_right (Int.pow_ne_zero (by decide)) h⟩

theorem isNum_unique {d : Decimal.Dec} {v : Json} (hd : d.nd = 0 ∨ ¬ (10 : Int) ∣ d.num) (h : IsNum (Decimal.val d) v) :
    (if d.nd = 0 then Json.int d.num else .dec d) = v := by
  unfold Decimal.val at h
  cases v with
  | int n =>
    simp only [IsNum] at h
    have e : mkRat d.num (10 ^ d.nd) = mkRat n (10 ^ 0) := by rw [h]; simp [Rat.mkRat_one]
    obtain ⟨h1, h2⟩ := lowest_unique e hd (Or.inl rfl)
    rw [if_pos h1, h2]
  | dec d' =>
    simp only [IsNum] at h
    obtain ⟨h1, h2⟩ := lowest_unique h.1 hd (Or.inr h.2.2)
    rw [if_neg (by omega)]
    cases d; cases d'
    simp_all
  | _ => exact h.elim

/-- What may follow a number. -/
def Follow (r : List UInt8) : Prop := ∃ c q, r = c :: q ∧ ¬ Digit c ∧ c ≠ 46 ∧ c ≠ 101 ∧ c ≠ 69

theorem follow_ends {r : List UInt8} (h : Follow r) : Decimal.Ends r := by
  obtain ⟨c, q, h1, h2, h3, h4, h5⟩ := h
  refine ⟨c, q, h1, h2, h3, ?_⟩
  have : ∀ n : Fin 256, Chr.toLower (UInt8.ofNat n.val) = 101 → UInt8.ofNat n.val = 101 ∨ UInt8.ofNat n.val = 69 := by decide +kernel
  have := this ⟨c.toNat, c.toNat_lt⟩
  simp only [UInt8.ofNat_toNat] at this
  intro e
  rcases this e with e | e
  · exact h4 e
  · exact h5 e

theorem readNumber_num {fl : RFlags} {t : List UInt8} {v : Json} (h : (readable fl).num t v) (after rest : List UInt8) (hr : Follow (rest ++ after)) :
    readNumber fl after (t ++ rest) = some (.ok (v, rest)) := by
  obtain ⟨p, hok, rfl, hv, he, hk, hf⟩ := h
  obtain ⟨h1, h2, h3, h4, _⟩ := hok
  have hs : Decimal.Sign (if p.neg then [45] else []) p.neg := by
    cases p.neg
    · exact Or.inl ⟨rfl, rfl⟩
    · exact Or.inr ⟨rfl, rfl⟩
  have ht : p.text = Decimal.written (if p.neg then [45] else []) p.ds p.fs := by
    unfold NumParts.text Decimal.written
    rw [he]
    simp
  obtain ⟨d, g1, g2, g3⟩ := Decimal.fromStr_exact_partial (len := (p.text ++ rest).length) hs h2 h1 h4 (follow_ends hr)
    (by rw [ht, List.length_append]; omega) hk hf
  unfold readNumber
  rw [List.append_assoc, ht] at *
  rw [g1]
  have hval : p.val = Decimal.val d := by
    unfold NumParts.val
    rw [he, g2]
  rw [hval] at hv
  simp only [Option.bind_some, true_or, if_true]
  rw [isNum_unique g3 hv]
  have : consume ((Decimal.written (if p.neg then [45] else []) p.ds p.fs ++ (rest ++ after)).length - (rest ++ after).length)
      (Decimal.written (if p.neg then [45] else []) p.ds p.fs ++ rest) = rest := by
    unfold consume
    rw [if_pos (by simp only [List.length_append]; omega)]
    simp
  rw [this]

theorem num_head {fl : RFlags} {t : List UInt8} {v : Json} (h : (readable fl).num t v) : ∃ c q, t = c :: q ∧ (c = 45 ∨ Chr.isDigit c = true) := by
  obtain ⟨p, hok, rfl, _⟩ := h
  obtain ⟨c, ds', e⟩ := List.exists_cons_of_ne_nil hok.1
  unfold NumParts.text
  cases p.neg
  · refine ⟨c, _, by rw [e]; simp; rfl, Or.inr ?_⟩
    have := hok.2.1 c (by rw [e]; simp)
    unfold Digit at this
    simp [Chr.isDigit, this.1, this.2]
  · exact ⟨45, _, by simp; rfl, Or.inl rfl⟩

theorem val_head {fl : RFlags} {t : List UInt8} {v : Json} (h : Val (readable fl) t v) :
    ∃ c q, t = c :: q ∧ Chr.isSpace c = false ∧ c ≠ 47 ∧ c ≠ 93 ∧ c ≠ 125 ∧ c ≠ 44 ∧ c ≠ 0 := by
  cases h with
  | num h =>
    obtain ⟨c, q, e, hc⟩ := num_head h
    refine ⟨c, q, e, ?_⟩
    have : ∀ n : Fin 256, (UInt8.ofNat n.val = 45 ∨ Chr.isDigit (UInt8.ofNat n.val) = true) → Chr.isSpace (UInt8.ofNat n.val) = false ∧ UInt8.ofNat n.val ≠ 47 ∧
      UInt8.ofNat n.val ≠ 93 ∧ UInt8.ofNat n.val ≠ 125 ∧ UInt8.ofNat n.val ≠ 44 ∧ UInt8.ofNat n.val ≠ 0 := by decide +kernel
    have := this ⟨c.toNat, c.toNat_lt⟩
    simp only [UInt8.ofNat_toNat] at this
    exact this hc
  | _ => exact ⟨_, _, rfl, by decide, by decide, by decide, by decide, by decide, by decide⟩

/-! ### Values -/

theorem solid_cons {c : UInt8} {r : List UInt8} (h : Chr.isSpace c = false ∧ c ≠ 47) : Solid (c :: r) := by
  intro d q e
  rw [← (List.cons.inj e).1]
  exact h

theorem val_solid {fl : RFlags} {t : List UInt8} {v : Json} (h : Val (readable fl) t v) (r : List UInt8) : Solid (t ++ r) := by
  obtain ⟨c, q, rfl, h1, h2, _⟩ := val_head h
  exact solid_cons ⟨h1, h2⟩

theorem skip_follow {fl : RFlags} {b : List UInt8} (hb : (readable fl).skip b) (x : UInt8) (hx : x = 44 ∨ x = 93 ∨ x = 125) (r : List UInt8) : Follow (b ++ x :: r) := by
  have h0 : Follow (x :: r) := ⟨x, r, rfl, by rcases hx with rfl | rfl | rfl <;> decide⟩
  have hc : ∀ c : UInt8, (c = 32 ∨ c = 9 ∨ c = 10 ∨ c = 13) → ∀ q, Follow (c :: q) := by
    intro c h q
    exact ⟨c, q, rfl, by rcases h with rfl | rfl | rfl | rfl <;> decide⟩
  have hs : ∀ q, Follow (47 :: q) := fun q => ⟨47, q, rfl, by decide⟩
  simp only [readable] at hb
  split at hb
  · cases hb with
    | nil => exact h0
    | cons h _ => exact hc _ h _
  · cases hb with
    | nil => exact h0
    | blank h _ => exact hc _ h _
    | block => exact hs _
    | line => exact hs _

theorem readValue_skip {fl : RFlags} {p q : List UInt8} (h : eatIgnored fl p = some (.ok q)) (hq : Solid q) (after : List UInt8) (fuel : Nat) :
    readValue fl after fuel p = readValue fl after fuel q := by
  cases fuel with
  | zero => rw [readValue, readValue]
  | succ f => rw [readValue, readValue, h, eatIgnored_solid fl hq]

/-- Reading the elements `l`, written as `t`. -/
def ReadsElems (fl : RFlags) (t : List UInt8) (l : List Json) : Prop := ∀ after rest : List UInt8, ∃ q, eatIgnored fl (t ++ 93 :: rest) = some (.ok q) ∧ q ≠ [] ∧
  q[0]? ≠ some 93 ∧ q.length ≤ (t ++ 93 :: rest).length ∧ ∀ fuel len acc, 2 * t.length + 2 ≤ fuel → len ≠ q.length →
    readArr fl after fuel len q acc = some (.ok (.arr (acc ++ l), rest))

/-- Reading the members `l`, written as `t`. -/
def ReadsMembers (fl : RFlags) (t : List UInt8) (l : List (List UInt8 × Json)) : Prop := ∀ after rest : List UInt8, ∃ q, eatIgnored fl (t ++ 125 :: rest) = some (.ok q) ∧
  q ≠ [] ∧ q[0]? ≠ some 125 ∧ Solid q ∧ ∀ fuel acc, 2 * t.length + 1 ≤ fuel → (acc.map (·.1) ++ l.map (·.1)).Nodup → [] ∉ l.map (·.1) →
    readObj fl after fuel q acc = some (.ok (.obj (acc ++ l), rest))

/-- Reading the value `v`, written as `t`. -/
def ReadsVal (fl : RFlags) (t : List UInt8) (v : Json) : Prop := ∀ (after rest : List UInt8) (fuel : Nat), 2 * t.length + 1 ≤ fuel → Follow (rest ++ after) ∨ Root v →
  readValue fl after fuel (t ++ rest) = some (.ok (v, rest))

theorem readObj_eq (fl : RFlags) (after : List UInt8) {p q : List UInt8} (h : eatIgnored fl p = some (.ok q)) (hq : Solid q) (fuel : Nat) (acc : List (List UInt8 × Json)) :
    readObj fl after fuel p acc = readObj fl after fuel q acc := by
  cases fuel with
  | zero => rw [readObj, readObj]
  | succ f =>
    rw [readObj, readObj, h, eatIgnored_solid fl hq]
    have key : ∀ p : List UInt8, eatIgnored fl p = some (.ok q) → p = [] ∨ p[0]? = some 125 → q = p := by
      intro p hp h'
      have : Solid p := by
        rcases h' with rfl | h'
        · intro c q e; cases e
        · cases p with
          | nil => cases h'
          | cons c p => simp at h'; subst h'; exact solid_cons (by decide)
      rw [eatIgnored_solid fl this] at hp
      simpa using hp.symm
    by_cases h1 : p = []
    · rw [key p h (Or.inl h1)]
    · by_cases h2 : p[0]? = some 125
      · rw [key p h (Or.inr h2)]
      · rw [if_neg h1, if_neg h2]
        cases q with
        | nil => rfl
        | cons c r =>
          by_cases hc : c = 125
          · subst hc
            simp [Res.andThen]
          · simp [hc]

theorem insert_new {l : List (List UInt8 × Json)} {k : List UInt8} {v : Json} (h0 : k ≠ []) (h : k ∉ l.map (·.1)) : insert l k v = l ++ [(k, v)] := by
  unfold insert
  rw [if_neg h0, if_neg]
  intro h'
  obtain ⟨m, hm, e⟩ := List.any_eq_true.1 h'
  exact h (List.mem_map.2 ⟨m, hm, by simpa using e⟩)

theorem reads_one {fl : RFlags} {a t b : List UInt8} {v : Json} (ha : (readable fl).skip a) (hv : Val (readable fl) t v) (hb : (readable fl).skip b)
    (ih : ReadsVal fl t v) (after : List UInt8) (x : UInt8) (hx : x = 44 ∨ x = 93) (r : List UInt8) (fuel len : Nat) (acc : List Json) (hf : 2 * t.length + 1 ≤ fuel)
    (hlen : len ≠ (t ++ (b ++ x :: r)).length) : readArr fl after (fuel + 1) len (t ++ (b ++ x :: r)) acc =
      if x = 44 then (eatIgnored fl r).andThen fun q => if q = [] ∨ q[0]? = some 93 then some (.error .expectedValue)
        else readArr fl after fuel (t ++ (b ++ x :: r)).length q (acc ++ [v])
      else readArr fl after fuel (t ++ (b ++ x :: r)).length (x :: r) (acc ++ [v]) := by
  have hs := val_solid hv (b ++ x :: r)
  obtain ⟨c, q, e, h1, h2, h3, _⟩ := val_head hv
  have hread := ih after (b ++ x :: r) fuel hf (Or.inl (by
    rw [List.append_assoc]
    exact skip_follow hb x (by rcases hx with h | h; exact Or.inl h; exact Or.inr (Or.inl h)) _))
  have hx' : Solid (x :: r) := solid_cons (by rcases hx with rfl | rfl <;> decide)
  rw [readArr, eatIgnored_solid fl hs]
  generalize hn : (t ++ (b ++ x :: r)).length = n at *
  rw [e] at hread ⊢
  rw [List.cons_append] at hread ⊢
  simp only [List.cons_ne_nil, List.getElem?_cons_zero, Option.some.injEq, h3, if_false, if_neg hlen, Res.andThen, hread, eatIgnored_skip hb hx']

theorem reads_member {fl : RFlags} (hfl : fl.dontDecode = false) {k b c t d key : List UInt8} {v : Json} (hk : (readable fl).str k key) (hb : (readable fl).skip b)
    (hc : (readable fl).skip c) (hv : Val (readable fl) t v) (hd : (readable fl).skip d)
    (ih : ReadsVal fl t v) (after : List UInt8) (x : UInt8) (hx : x = 44 ∨ x = 125) (r : List UInt8) (fuel : Nat) (acc : List (List UInt8 × Json)) (hf : 2 * t.length + 1 ≤ fuel)
    (hkey : key ∉ acc.map (·.1)) (h0 : key ≠ []) :
    readObj fl after (fuel + 1) (34 :: (k ++ 34 :: (b ++ 58 :: (c ++ (t ++ (d ++ x :: r)))))) acc =
      if x = 44 then (eatIgnored fl r).andThen fun q => if q = [] ∨ q[0]? = some 125 then some (.error .expectedValue) else readObj fl after fuel q (acc ++ [(key, v)])
      else readObj fl after fuel (x :: r) (acc ++ [(key, v)]) := by
  have hs := val_solid hv (d ++ x :: r)
  have hread := ih after (d ++ x :: r) fuel hf (Or.inl (by
    rw [List.append_assoc]
    exact skip_follow hd x (by rcases hx with h | h; exact Or.inl h; exact Or.inr (Or.inr h)) _))
  have hx' : Solid (x :: r) := solid_cons (by rcases hx with rfl | rfl <;> decide)
  have h34 : Solid (34 :: (k ++ 34 :: (b ++ 58 :: (c ++ (t ++ (d ++ x :: r)))))) := solid_cons (by decide)
  have h58 : Solid (58 :: (c ++ (t ++ (d ++ x :: r)))) := solid_cons (by decide)
  have hany : ¬ (fl.uniqueKeys = true ∧ acc.any (fun m => m.1 == key) = true) := by
    rintro ⟨_, h'⟩
    obtain ⟨m, hm, e⟩ := List.any_eq_true.1 h'
    exact hkey (List.mem_map.2 ⟨m, hm, by simpa using e⟩)
  rw [readObj, eatIgnored_solid fl h34, if_neg (by simp), if_neg (by simp)]
  simp only [Res.andThen]
  rw [if_neg (by decide), if_neg (by simp), readString_body hfl after hk]
  simp only [if_neg hany]
  rw [eatIgnored_skip hb h58]
  simp only [ne_eq, not_true_eq_false, if_false]
  rw [readValue_skip (eatIgnored_skip hc hs) hs, hread]
  simp only [eatIgnored_skip hd hx', insert_new h0 hkey]

/-- Every value of the readable grammar is read, up to the end of its text. -/
theorem reads_val {fl : RFlags} (hfl : fl.dontDecode = false) {t : List UInt8} {v : Json} (h : Val (readable fl) t v) : ReadsVal fl t v := by
  refine Val.rec (motive_1 := fun t v _ => ReadsVal fl t v) (motive_2 := fun t l _ => ReadsElems fl t l) (motive_3 := fun t l _ => ReadsMembers fl t l)
    ?_ ?_ ?_ ?_ ?_ ?_ ?_ ?_ ?_ ?_ ?_ ?_ ?_ h
  · intro after rest fuel hf _
    obtain ⟨f, rfl⟩ : ∃ f, fuel = f + 1 := ⟨fuel - 1, by omega⟩
    rw [readValue, List.cons_append, eatIgnored_solid fl (solid_cons (by decide))]
    simp [Res.andThen]
  · intro after rest fuel hf _
    obtain ⟨f, rfl⟩ : ∃ f, fuel = f + 1 := ⟨fuel - 1, by omega⟩
    rw [readValue, List.cons_append, eatIgnored_solid fl (solid_cons (by decide))]
    simp [Res.andThen]
  · intro after rest fuel hf _
    obtain ⟨f, rfl⟩ : ∃ f, fuel = f + 1 := ⟨fuel - 1, by omega⟩
    rw [readValue, List.cons_append, eatIgnored_solid fl (solid_cons (by decide))]
    simp [Res.andThen]
  · intro t v hn after rest fuel hf hr
    obtain ⟨f, rfl⟩ : ∃ f, fuel = f + 1 := ⟨fuel - 1, by omega⟩
    have hr : Follow (rest ++ after) := by
      rcases hr with hr | hr
      · exact hr
      · obtain ⟨p, _, _, h, _⟩ := hn
        cases v <;> first | exact hr.elim | exact h.elim
    rw [readValue, eatIgnored_solid fl (val_solid (.num hn) rest)]
    have hnum := readNumber_num hn after rest hr
    obtain ⟨c, q, rfl, hc⟩ := num_head hn
    have : ∀ n : Fin 256, (UInt8.ofNat n.val = 45 ∨ Chr.isDigit (UInt8.ofNat n.val) = true) → UInt8.ofNat n.val ≠ 123 ∧ UInt8.ofNat n.val ≠ 91 ∧ UInt8.ofNat n.val ≠ 34 ∧
      UInt8.ofNat n.val ≠ 116 ∧ UInt8.ofNat n.val ≠ 102 ∧ UInt8.ofNat n.val ≠ 110 := by decide +kernel
    have := this ⟨c.toNat, c.toNat_lt⟩
    simp only [UInt8.ofNat_toNat] at this
    obtain ⟨g1, g2, g3, g4, g5, g6⟩ := this hc
    rw [List.cons_append] at hnum ⊢
    simp only [Res.andThen, g1, g2, g3, g4, g5, g6, if_false, if_pos hc, hnum]
  · intro t s hs after rest fuel hf _
    obtain ⟨f, rfl⟩ : ∃ f, fuel = f + 1 := ⟨fuel - 1, by omega⟩
    rw [readValue, List.cons_append, eatIgnored_solid fl (solid_cons (by decide)), List.append_assoc, List.cons_append, List.nil_append]
    simp only [Res.andThen]
    rw [if_neg (by decide), if_neg (by decide), if_pos trivial, readString_body hfl after hs]
  · intro w hw after rest fuel hf _
    simp only [List.length_cons, List.length_append] at hf
    obtain ⟨f, rfl⟩ : ∃ f, fuel = f + 2 := ⟨fuel - 2, by omega⟩
    rw [readValue, List.cons_append, eatIgnored_solid fl (solid_cons (by decide)), List.append_assoc, List.cons_append, List.nil_append]
    simp only [Res.andThen]
    rw [if_neg (by decide), if_pos trivial, eatIgnored_skip hw (solid_cons (by decide))]
    simp [readArr]
  · intro t l _ ih after rest fuel hf _
    simp only [List.length_cons, List.length_append] at hf
    obtain ⟨f, rfl⟩ : ∃ f, fuel = f + 1 := ⟨fuel - 1, by omega⟩
    obtain ⟨q, g1, g2, g3, g4, g5⟩ := ih after rest
    rw [readValue, List.cons_append, eatIgnored_solid fl (solid_cons (by decide)), List.append_assoc, List.cons_append, List.nil_append]
    simp only [Res.andThen]
    rw [if_neg (by decide), if_pos trivial, g1]
    exact g5 f 0 [] (by omega) (fun e => g2 (List.length_eq_zero_iff.1 e.symm))
  · intro w hw after rest fuel hf _
    simp only [List.length_cons, List.length_append] at hf
    obtain ⟨f, rfl⟩ : ∃ f, fuel = f + 2 := ⟨fuel - 2, by omega⟩
    rw [readValue, List.cons_append, eatIgnored_solid fl (solid_cons (by decide)), List.append_assoc, List.cons_append, List.nil_append]
    simp only [Res.andThen]
    rw [if_pos trivial, readObj_eq fl after (eatIgnored_skip hw (solid_cons (by decide))) (solid_cons (by decide))]
    simp [readObj]
  · intro t ms l _ hb ih after rest fuel hf _
    obtain ⟨rfl, hb1, hb2⟩ := hb
    simp only [List.length_cons, List.length_append] at hf
    obtain ⟨f, rfl⟩ : ∃ f, fuel = f + 1 := ⟨fuel - 1, by omega⟩
    obtain ⟨q, g1, g2, g3, g4, g5⟩ := ih after rest
    rw [readValue, List.cons_append, eatIgnored_solid fl (solid_cons (by decide)), List.append_assoc, List.cons_append, List.nil_append]
    simp only [Res.andThen]
    rw [if_pos trivial, readObj_eq fl after g1 g4]
    exact g5 f [] (by omega) (by simpa using hb1) hb2
  · intro a t b v ha hv hb ih after rest
    have hs := val_solid hv (b ++ 93 :: rest)
    refine ⟨t ++ (b ++ 93 :: rest), ?_, ?_, ?_, ?_, ?_⟩
    · rw [List.append_assoc, List.append_assoc]; exact eatIgnored_skip ha hs
    · simp
    · obtain ⟨c, q, rfl, _, _, h3, _⟩ := val_head hv; simpa using h3
    · simp only [List.length_append, List.length_cons]; omega
    · intro fuel len acc hf hl
      simp only [List.length_append] at hf
      obtain ⟨f, rfl⟩ : ∃ f, fuel = f + 2 := ⟨fuel - 2, by omega⟩
      rw [reads_one ha hv hb ih after 93 (Or.inr rfl) rest (f + 1) len acc (by omega) hl, if_neg (by decide)]
      simp [readArr]
  · intro a t b s u v l ha hv hb hsep _ ih ihu after rest
    have hsep : s = [44] := hsep
    subst hsep
    have e : (a ++ (t ++ (b ++ ([44] ++ u)))) ++ 93 :: rest = a ++ (t ++ (b ++ 44 :: (u ++ 93 :: rest))) := by simp
    have hs := val_solid hv (b ++ 44 :: (u ++ 93 :: rest))
    obtain ⟨q, g1, g2, g3, g4, g5⟩ := ihu after rest
    refine ⟨t ++ (b ++ 44 :: (u ++ 93 :: rest)), ?_, ?_, ?_, ?_, ?_⟩
    · rw [e]; exact eatIgnored_skip ha hs
    · simp
    · obtain ⟨c, q, rfl, _, _, h3, _⟩ := val_head hv; simpa using h3
    · rw [e]; simp only [List.length_append, List.length_cons]; omega
    · intro fuel len acc hf hl
      simp only [List.length_append, List.length_cons, List.length_nil] at hf
      obtain ⟨f, rfl⟩ : ∃ f, fuel = f + 1 := ⟨fuel - 1, by omega⟩
      rw [reads_one ha hv hb ih after 44 (Or.inl rfl) (u ++ 93 :: rest) f len acc (by omega) hl, if_pos rfl, g1]
      simp only [Res.andThen]
      rw [if_neg (by simp [g2, g3]), g5 f _ _ (by omega) (by simp only [List.length_append, List.length_cons] at g4 ⊢; omega)]
      simp
  · intro a k b c t d key v ha hk hb hc hv hd ih after rest
    have e : (a ++ 34 :: (k ++ 34 :: (b ++ 58 :: (c ++ (t ++ d))))) ++ 125 :: rest = a ++ 34 :: (k ++ 34 :: (b ++ 58 :: (c ++ (t ++ (d ++ 125 :: rest))))) := by simp
    refine ⟨34 :: (k ++ 34 :: (b ++ 58 :: (c ++ (t ++ (d ++ 125 :: rest))))), ?_, by simp, by simp, solid_cons (by decide), ?_⟩
    · rw [e]; exact eatIgnored_skip ha (solid_cons (by decide))
    · intro fuel acc hf hnd h0
      simp only [List.length_append, List.length_cons] at hf
      obtain ⟨f, rfl⟩ : ∃ f, fuel = f + 2 := ⟨fuel - 2, by omega⟩
      simp only [List.map_cons, List.map_nil, List.mem_singleton] at h0 hnd
      have hkey : key ∉ acc.map (·.1) := fun h => (List.nodup_append.1 hnd).2.2 key h key (by simp) rfl
      rw [reads_member hfl hk hb hc hv hd ih after 125 (Or.inr rfl) rest (f + 1) acc (by omega) hkey (fun e => h0 e.symm), if_neg (by decide)]
      simp [readObj]
  · intro a k b c t d s u key v l ha hk hb hc hv hd hsep _ ih ihu after rest
    have hsep : s = [44] := hsep
    subst hsep
    have e : (a ++ 34 :: (k ++ 34 :: (b ++ 58 :: (c ++ (t ++ (d ++ ([44] ++ u))))))) ++ 125 :: rest =
      a ++ 34 :: (k ++ 34 :: (b ++ 58 :: (c ++ (t ++ (d ++ 44 :: (u ++ 125 :: rest)))))) := by simp
    obtain ⟨q, g1, g2, g3, g4, g5⟩ := ihu after rest
    refine ⟨34 :: (k ++ 34 :: (b ++ 58 :: (c ++ (t ++ (d ++ 44 :: (u ++ 125 :: rest)))))), ?_, by simp, by simp, solid_cons (by decide), ?_⟩
    · rw [e]; exact eatIgnored_skip ha (solid_cons (by decide))
    · intro fuel acc hf hnd h0
      simp only [List.length_append, List.length_cons, List.length_nil] at hf
      obtain ⟨f, rfl⟩ : ∃ f, fuel = f + 1 := ⟨fuel - 1, by omega⟩
      simp only [List.map_cons, List.mem_cons, not_or] at h0 hnd
      have hkey : key ∉ acc.map (·.1) := fun h => (List.nodup_append.1 hnd).2.2 key h key (by simp) rfl
      rw [reads_member hfl hk hb hc hv hd ih after 44 (Or.inl rfl) (u ++ 125 :: rest) f acc (by omega) hkey (fun e => h0.1 e.symm), if_pos rfl, g1]
      simp only [Res.andThen]
      rw [if_neg (by simp [g2, g3]), g5 f _ (by omega) (by simpa using hnd) h0.2]
      simp

/-- Every document of the readable grammar is read as the value it stands for. -/
theorem read_doc {fl : RFlags} (hfl : fl.dontDecode = false) {t : List UInt8} {v : Json} (h : Doc (readable fl) t v) (whole : Bool) (after : List UInt8) :
    read fl whole after t = some (.ok (v, 0)) := by
  obtain ⟨a, u, b, rfl, ha, hb, hv, hr⟩ := h
  obtain ⟨c, q, e, h1, h2, h3, h4, h5, h6⟩ := val_head hv
  have hne : a ++ (u ++ b) ≠ [] := by rw [e]; simp
  have h0 : (a ++ (u ++ b))[0]? ≠ some 0 := by
    have key : ∀ c : UInt8, (c = 32 ∨ c = 9 ∨ c = 10 ∨ c = 13) → ∀ q : List UInt8, (c :: q)[0]? ≠ some 0 := by
      intro c h q
      rcases h with rfl | rfl | rfl | rfl <;> simp
    have hz : (u ++ b)[0]? ≠ some 0 := by rw [e]; simpa using h6
    simp only [readable] at ha
    split at ha
    · cases ha with
      | nil => exact hz
      | cons h _ => exact key _ h _
    · cases ha with
      | nil => exact hz
      | blank h _ => exact key _ h _
      | block => simp
      | line => simp
  have hs := val_solid hv b
  unfold read
  rw [if_neg (by simp [hne, h0]), readValue_skip (eatIgnored_skip ha hs) hs,
    reads_val hfl hv after b _ (by simp only [List.length_append]; omega) (Or.inr hr)]
  simp only [Res.andThen]
  have he : eatIgnored fl b = some (.ok []) := by
    have := eatIgnored_skip (r := []) hb (by intro c q e; cases e)
    rwa [List.append_nil] at this
  have hb' : (if b.length > 0 then eatIgnored fl b else some (.ok b)) = some (.ok []) := by
    split
    · exact he
    · rename_i h
      have : b = [] := List.length_eq_zero_iff.1 (by omega)
      rw [this]
  rw [hb']
  cases v with
  | obj l => simp
  | arr l => simp
  | _ => exact hr.elim

end Verif.Json
