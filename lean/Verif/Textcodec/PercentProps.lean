import Verif.Textcodec.Model
import Verif.Bincodec.Props
/- Percent encoding (C51, C68). -/
namespace Verif.Textcodec
open Verif.Bincodec (hexVal)

/-! ### Specification -/

/-- What a percent encoded text means: `%XX` is a byte, in forms `+` is a space, everything else is itself; a `%` without two
hex digits behind it makes it meaningless. -/
inductive Means (form : Bool) : List UInt8 → List UInt8 → Prop
  | nil : Means form [] []
  | esc {a b x y s t} : hexVal a = some x → hexVal b = some y → Means form s t →
      Means form (37 :: a :: b :: s) (UInt8.ofNat (16 * x + y) :: t)
  | plus {s t} : form = true → Means form s t → Means form (43 :: s) (32 :: t)
  | lit {c s t} : c ≠ 37 → ¬ (c = 43 ∧ form = true) → Means form s t → Means form (c :: s) (c :: t)

/-- The characters that may stand in the encoding: printable ASCII without the space; the form variants leave line breaks. -/
def Safe (form : Bool) (c : UInt8) : Prop := (0x21 ≤ c ∧ c ≤ 0x7E) ∨ (form = true ∧ (c = 13 ∨ c = 10))

/-! ### Lemmas -/

theorem hexVal_not_space (c : UInt8) : hexVal c ≠ none → Bincodec.isSpace c = false := by
  have : ∀ k : Fin 256, hexVal (UInt8.ofNat k) ≠ none → Bincodec.isSpace (UInt8.ofNat k) = false := by decide +kernel
  have h := this ⟨c.toNat, c.toNat_lt⟩
  simpa using h

instance (form : Bool) (c : UInt8) : Decidable (Safe form c) := by unfold Safe; infer_instance

theorem hex2 (a b : UInt8) : Bincodec.hexDecode 4 [a, b, 0, 0] 2 = some (match hexVal a, hexVal b with
    | some x, some y => [UInt8.ofNat (16 * x + y)]
    | _, _ => []) := by
  have e : Bincodec.hexDecode 4 [a, b, 0, 0] 2 = some (Bincodec.hexPairs (Bincodec.text [a, b, 0, 0] 2) []) := by
    unfold Bincodec.hexDecode
    rw [if_neg (by omega), Bincodec.hexDecLoop_eq (by simp) _ [] _ 0 (Bincodec.text_eq _ _) (by simp) (by omega)]
  have hv : ∀ c : UInt8, Bincodec.hexValid c = (hexVal c).isSome ∧ (∀ x, hexVal c = some x → Bincodec.hex2dec c = x ∧ x < 16) := by
    intro c
    rcases Bincodec.hexVal_spec c with ⟨h1, h2, h3⟩ | ⟨h1, h2⟩ <;> rw [h1, h2]
    · exact ⟨rfl, fun x hx => by cases hx; exact ⟨rfl, h3⟩⟩
    · exact ⟨rfl, fun x hx => by cases hx⟩
  rw [e]
  have ha := hexVal_not_space a
  have hb := hexVal_not_space b
  obtain ⟨va, wa⟩ := hv a
  obtain ⟨vb, wb⟩ := hv b
  unfold Bincodec.text
  cases ea : hexVal a with
  | none =>
    rw [ea] at va
    cases sa : Bincodec.isSpace a <;> cases sb : Bincodec.isSpace b <;> cases eb : hexVal b <;> rw [eb] at vb <;>
      simp [List.filter, sa, sb, Bincodec.hexPairs, va, vb]
  | some x =>
    rw [ea] at va ha wa
    have ha := ha (by simp)
    cases eb : hexVal b with
    | none =>
      rw [eb] at vb
      cases sb : Bincodec.isSpace b <;> simp [List.filter, ha, sb, Bincodec.hexPairs, va, vb]
    | some y =>
      rw [eb] at vb hb wb
      obtain ⟨p1, p2⟩ := wa x rfl
      obtain ⟨q1, q2⟩ := wb y rfl
      simp only [List.take, List.filter, ha, hb (by simp), Bool.not_false, Bincodec.hexPairs, va, vb, Option.isSome_some, if_true, p1, q1]
      have : ∀ i j : Fin 16, (i.1 <<< 4 ||| j.1) = 16 * i.1 + j.1 := by decide
      rw [this ⟨x, p2⟩ ⟨y, q2⟩]
      rfl

/-- The decoder on a meaningful text, whatever the error handler. -/
theorem dec_means {v : Pct} {s t : List UInt8} (h : Means v.isForm s t) (eh : Eh) : ∀ (rc : Rc) (out : List UInt8),
    pctDecLoop eh v s rc out = some (rc, out ++ t) := by
  induction h with
  | nil => intro rc out; simp [pctDecLoop]
  | @esc a b x y s t ha hb _ ih =>
    intro rc out
    rw [pctDecLoop, if_neg (fun h => absurd h.1 (by decide)), if_neg (by decide), hex2, ha, hb]
    simp only [Option.bind_some]
    rw [ih]; simp
  | @plus s t hf _ ih =>
    intro rc out
    rcases s with _ | ⟨a, _ | ⟨b, s⟩⟩ <;> rw [pctDecLoop, if_pos ⟨rfl, hf⟩]
    · have := ih rc (out ++ [32]); rw [pctDecLoop] at this; simpa using this
    · rw [ih]; simp
    · rw [ih]; simp
  | @lit c s t h1 h2 _ ih =>
    intro rc out
    rcases s with _ | ⟨a, _ | ⟨b, s⟩⟩ <;> rw [pctDecLoop, if_neg h2, if_pos h1]
    · have := ih rc (out ++ [c]); rw [pctDecLoop] at this; simpa using this
    · rw [ih]; simp
    · rw [ih]; simp

theorem dec_plain {v : Pct} {eh : Eh} {c : UInt8} {s : List UInt8} (h : c ≠ 37) (rc : Rc) (out : List UInt8) :
    pctDecLoop eh v (c :: s) rc out = pctDecLoop eh v s rc (out ++ [if c = 43 ∧ v.isForm = true then 32 else c]) := by
  rcases s with _ | ⟨a, _ | ⟨b, s⟩⟩ <;> (conv => lhs; rw [pctDecLoop]) <;> by_cases h2 : c = 43 ∧ v.isForm = true <;>
    first | (rw [if_pos h2, if_pos h2]) | (rw [if_neg h2, if_pos h, if_neg h2])
  all_goals simp [pctDecLoop]

/-- With the handler that fails, the decoder fails on every other text. -/
theorem dec_fail {v : Pct} : ∀ (n : Nat) (s : List UInt8), s.length ≤ n → (¬ ∃ t, Means v.isForm s t) → ∀ rc out,
    ∃ o, pctDecLoop .fail v s rc out = some (.fail, o) := by
  intro n
  induction n with
  | zero =>
    intro s hs h
    cases s with
    | nil => exact absurd ⟨_, .nil⟩ h
    | cons => simp at hs
  | succ n ih =>
    intro s hs h rc out
    cases s with
    | nil => exact absurd ⟨_, .nil⟩ h
    | cons c s =>
      by_cases hc : c = 37
      · subst hc
        rcases s with _ | ⟨a, _ | ⟨b, s⟩⟩
        · exact ⟨out, by simp [pctDecLoop, bad]⟩
        · exact ⟨out, by simp [pctDecLoop, bad]⟩
        · rw [pctDecLoop, if_neg (fun h => absurd h.1 (by decide)), if_neg (by decide), hex2]
          cases ea : hexVal a with
          | none => exact ⟨out, by simp [bad]⟩
          | some x =>
            cases eb : hexVal b with
            | none => exact ⟨out, by simp [bad]⟩
            | some y =>
              simp only [Option.bind_some]
              simp only [List.length_cons] at hs
              exact ih s (by omega) (fun ⟨t, ht⟩ => h ⟨_, .esc ea eb ht⟩) _ _
      · rw [dec_plain hc]
        simp only [List.length_cons] at hs
        refine ih s (by omega) (fun ⟨t, ht⟩ => h ?_) _ _
        by_cases hp : c = 43 ∧ v.isForm = true
        · rw [hp.1]; exact ⟨_, .plus hp.2 ht⟩
        · exact ⟨_, .lit hc hp ht⟩

/-- The decoder always comes to an end without touching other memory. -/
theorem dec_total {v : Pct} {eh : Eh} : ∀ (n : Nat) (s : List UInt8), s.length ≤ n → ∀ rc out, ∃ r, pctDecLoop eh v s rc out = some r := by
  intro n
  induction n with
  | zero =>
    intro s hs rc out
    cases s with
    | nil => exact ⟨_, rfl⟩
    | cons => simp at hs
  | succ n ih =>
    intro s hs rc out
    cases s with
    | nil => exact ⟨_, rfl⟩
    | cons c s =>
      simp only [List.length_cons] at hs
      by_cases hc : c = 37
      · subst hc
        rcases s with _ | ⟨a, _ | ⟨b, s⟩⟩
        · exact ⟨bad eh out, by simp [pctDecLoop]⟩
        · rw [pctDecLoop, if_neg (fun h => absurd h.1 (by decide)), if_neg (by decide)]
          split
          · exact ih _ (by simpa using hs) _ _
          · exact ⟨_, rfl⟩
        · simp only [List.length_cons] at hs
          rw [pctDecLoop, if_neg (fun h => absurd h.1 (by decide)), if_neg (by decide), hex2]
          simp only [Option.bind_some]
          split
          · split
            · exact ⟨_, rfl⟩
            · exact ih _ (by omega) _ _
          · exact ih _ (by omega) _ _
      · rw [dec_plain hc]
        exact ih s (by omega) _ _

/-- The encoding of one byte. -/
def encByte (v : Pct) (c : UInt8) : List UInt8 :=
  if process v c = false then [c] else if c = 32 then (if v.isForm then [43] else [37, 50, 48])
  else 37 :: Bincodec.chars16 [c]

theorem enc_eq (eh : Eh) (v : Pct) (s : List UInt8) : ∀ (rc : Rc) (out : List UInt8),
    pctEncLoop eh v s rc out = some (rc, out ++ s.flatMap (encByte v)) := by
  induction s with
  | nil => intro rc out; simp [pctEncLoop]
  | cons c s ih =>
    intro rc out
    rw [pctEncLoop, List.flatMap_cons]
    rw [encByte]
    split
    · rw [ih]; simp
    · split
      · rw [ih, List.append_assoc]
      · have h := (Bincodec.hex_encode_correct (cap := 4) (wrap := 0) (x := [c]) (by simp) (by simp [Bincodec.hexEncodeSize])).1
        have h2 : Bincodec.wrapS 0 0 (Bincodec.chars16 [c]) = Bincodec.chars16 [c] := by
          have : ∀ k : Fin 256, Bincodec.wrapS 0 0 (Bincodec.chars16 [UInt8.ofNat k]) = Bincodec.chars16 [UInt8.ofNat k] := by decide +kernel
          have h := this ⟨c.toNat, c.toNat_lt⟩
          simpa using h
        rw [h, h2]
        simp only [Option.bind_some]
        rw [if_neg (by simp [Bincodec.chars16]), ih]
        simp

/-- One byte: its encoding is safe and means it. -/
theorem encByte_ok (v : Pct) (c : UInt8) : ((encByte v c).all fun b => decide (Safe v.isForm b)) = true ∧
    ((encByte v c = [c] ∧ c ≠ 37 ∧ ¬ (c = 43 ∧ v.isForm = true)) ∨ (encByte v c = [43] ∧ c = 32 ∧ v.isForm = true) ∨
      (encByte v c = 37 :: Bincodec.chars16 [c])) := by
  have : ∀ k : Fin 256, let c := UInt8.ofNat k; ((encByte v c).all fun b => decide (Safe v.isForm b)) = true ∧
    ((encByte v c = [c] ∧ c ≠ 37 ∧ ¬ (c = 43 ∧ v.isForm = true)) ∨ (encByte v c = [43] ∧ c = 32 ∧ v.isForm = true) ∨
      (encByte v c = 37 :: Bincodec.chars16 [c])) := by cases v <;> decide +kernel
  have h := this ⟨c.toNat, c.toNat_lt⟩
  simpa using h
  
theorem encByte_means (v : Pct) (s : List UInt8) : Means v.isForm (s.flatMap (encByte v)) s := by
  induction s with
  | nil => exact .nil
  | cons c s ih =>
    rw [List.flatMap_cons]
    rcases (encByte_ok v c).2 with ⟨h1, h2, h3⟩ | ⟨h1, h2, h3⟩ | h1
    · rw [h1]; exact .lit h2 h3 ih
    · rw [h1, h2]; exact .plus h3 ih
    · have h := Bincodec.chars16_nibbles [c]
      simp only [Bincodec.chars16, Bincodec.nibbles, List.flatMap_cons, List.flatMap_nil, List.map_cons, List.map_append, List.map_nil,
        List.append_nil, List.cons.injEq, and_true] at h
      have e : c = UInt8.ofNat (16 * (c.toNat / 16) + c.toNat % 16) := by
        rw [Nat.div_add_mod, UInt8.ofNat_toNat]
      rw [h1]
      simp only [Bincodec.chars16, List.cons_append, List.nil_append]
      conv => rhs; rw [e]
      exact .esc h.1 h.2 ih

/-! ### C51 -/

/-- **C51.** Decoding the percent encoding of any text gives the text back with every variant and every error handler; the
encoding is safe, and encoding reports no error. -/
theorem percent_roundtrip (eh eh' : Eh) (v : Pct) (s : List UInt8) : ∃ e, pctEncode eh v s = some (.success, e) ∧
    (∀ c ∈ e, Safe v.isForm c) ∧ pctDecode eh' v e = some (.success, s) := by
  have hs : ∀ c ∈ s.flatMap (encByte v), Safe v.isForm c := by
    intro c hc
    obtain ⟨b, _, hb⟩ := List.mem_flatMap.1 hc
    simpa using List.all_eq_true.1 (encByte_ok v b).1 c hb
  refine ⟨s.flatMap (encByte v), by rw [pctEncode, enc_eq, List.nil_append], hs, ?_⟩
  rw [pctDecode, if_neg, dec_means (encByte_means v s), List.nil_append]
  rintro ⟨_, h⟩
  obtain ⟨c, h1, h2⟩ := List.any_eq_true.1 h
  have := hs c h1
  have h2 : 128 ≤ c := by simpa using h2
  have h3 : (128 : Nat) ≤ c.toNat := h2
  rcases this with ⟨_, h4⟩ | ⟨_, h4 | h4⟩
  · have : c.toNat ≤ 0x7E := h4
    omega
  · rw [h4] at h3; exact absurd h3 (by decide)
  · rw [h4] at h3; exact absurd h3 (by decide)

example : pctEncode .fail .form [97, 32, 43, 0xC3, 10] = some (.success, [97, 43, 37, 50, 66, 37, 67, 51, 10]) ∧
    pctDecode .fail .form [97, 43, 37, 50, 66, 37, 67, 51, 10] = some (.success, [97, 32, 43, 0xC3, 10]) := by decide +kernel

/-- What is encoded: the space, control characters, `%` and everything that is not ASCII never stand for themselves. -/
theorem percent_escapes (v : Pct) (c : UInt8) (h : c = 37 ∨ c ≥ 127 ∨ c < 0x21 ∧ ¬ (v.isForm = true ∧ (c = 13 ∨ c = 10))) (eh : Eh) :
    ∃ e, pctEncode eh v [c] = some (.success, e) ∧ e ≠ [c] := by
  rw [pctEncode, enc_eq]
  refine ⟨_, rfl, ?_⟩
  have : ∀ k : Fin 256, let c := UInt8.ofNat k; (c = 37 ∨ c ≥ 127 ∨ c < 0x21 ∧ ¬ (v.isForm = true ∧ (c = 13 ∨ c = 10))) →
      [] ++ [c].flatMap (encByte v) ≠ [c] := by cases v <;> decide +kernel
  have h' := this ⟨c.toNat, c.toNat_lt⟩
  simp only [UInt8.ofNat_toNat] at h'
  exact h' h

/-! ### C68 -/

/-- **C68.** With the handler that fails, decoding gives the meaning of the text if it is ASCII and has one, and else an error;
with any handler a text with a meaning decodes to it. -/
theorem percent_decode_correct (v : Pct) (s : List UInt8) :
    (∀ t, (∀ c ∈ s, c < 128) → Means v.isForm s t → ∀ eh, pctDecode eh v s = some (.success, t)) ∧
    ((∀ c ∈ s, c < 128) → (¬ ∃ t, Means v.isForm s t) → ∃ o, pctDecode .fail v s = some (.fail, o)) ∧
    ((∃ c ∈ s, c ≥ 128) → pctDecode .fail v s = some (.badInput, [])) ∧
    (∀ eh, ∃ r, pctDecode eh v s = some r) := by
  have hn : (∀ c ∈ s, c < 128) → ¬ (s.any (· ≥ 128)) = true := by
    intro h ha
    obtain ⟨c, h1, h2⟩ := List.any_eq_true.1 ha
    have h2 : 128 ≤ c := by simpa using h2
    exact absurd (h c h1) (UInt8.not_lt.2 h2)
  refine ⟨fun t ha hm eh => ?_, fun ha hm => ?_, fun ⟨c, hc, h⟩ => ?_, fun eh => ?_⟩
  · rw [pctDecode, if_neg (fun h => hn ha h.2), dec_means hm, List.nil_append]
  · rw [pctDecode, if_neg (fun h => hn ha h.2)]
    exact dec_fail s.length s (Nat.le_refl _) hm _ _
  · rw [pctDecode, if_pos ⟨rfl, List.any_eq_true.2 ⟨c, hc, by simpa using h⟩⟩]
  · rw [pctDecode]
    split
    · exact ⟨_, rfl⟩
    · exact dec_total s.length s (Nat.le_refl _) _ _

/-- The meaning is unique. -/
theorem means_unique {form : Bool} {s t u : List UInt8} (h : Means form s t) (h' : Means form s u) : t = u := by
  induction h generalizing u with
  | nil => cases h'; rfl
  | esc ha hb _ ih =>
    cases h' with
    | esc ha' hb' h2 => rw [ha] at ha'; rw [hb] at hb'; cases ha'; cases hb'; rw [ih h2]
    | lit h1 => exact absurd rfl h1
  | plus hf _ ih =>
    cases h' with
    | plus _ h2 => rw [ih h2]
    | lit _ h1 => exact absurd ⟨rfl, hf⟩ h1
  | lit h1 h2 _ ih =>
    cases h' with
    | esc => exact absurd rfl h1
    | plus hf => exact absurd ⟨rfl, hf⟩ h2
    | lit _ _ h3 => rw [ih h3]

example : Means false [97, 37, 52, 49] [97, 65] := .lit (by decide) (by decide) (.esc (x := 4) (y := 1) (by decide) (by decide) .nil)
example : ¬ ∃ t, Means false [37, 52] t := by
  rintro ⟨t, h⟩
  cases h with
  | lit h => exact h rfl

/-- The replacement for a bad sequence is `FF FD`, which is not UTF-8. -/
theorem percent_replace_fails : pctDecode .replace .url [97, 37, 122, 122] = some (.successEh, [97, 0xFF, 0xFD]) := by decide +kernel

end Verif.Textcodec
