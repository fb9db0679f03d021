import Verif.Textcodec.Model
import Verif.Bincodec.Props
import Verif.Parser.ScanProps
/- Quoted-printable (C52). -/
namespace Verif.Textcodec.Qp
open Verif.Bincodec (hexVal)

/-! ### Specification -/

/-- What a quoted-printable text means: `=XX` is a byte, `=` at the end of a line removes the line break, every other
character is itself. -/
inductive Means : List UInt8 → List UInt8 → Prop
  | nil : Means [] []
  | soft {s t} : Means s t → Means (61 :: 13 :: 10 :: s) t
  | esc {a b x y s t} : hexVal a = some x → hexVal b = some y → Means s t → Means (61 :: a :: b :: s) (UInt8.ofNat (16 * x + y) :: t)
  | lit {c s t} : c ≠ 61 → Means s t → Means (c :: s) (c :: t)

/-- The lines of a text, without the line feeds. -/
def lines : List UInt8 → List (List UInt8)
  | [] => [[]]
  | c :: s => if c = 10 then [] :: lines s else match lines s with
    | [] => [[c]]
    | l :: ls => (c :: l) :: ls

/-- A line without the carriage return of its line break. -/
def chomp (l : List UInt8) : List UInt8 := if l.getLast? = some 13 then l.dropLast else l

/-! ### Lemmas -/

theorem lines_ne (s : List UInt8) : lines s ≠ [] := by
  cases s with
  | nil => simp [lines]
  | cons c s => rw [lines]; split; · simp
                split <;> simp

theorem lines_last {p : List UInt8} (h : 10 ∉ p) : lines p = [p] := by
  induction p with
  | nil => rfl
  | cons c p ih =>
    rw [lines, if_neg (fun e => h (by simp [e])), ih (fun e => h (by simp [e]))]

theorem lines_lf {p : List UInt8} (h : 10 ∉ p) (s : List UInt8) : lines (p ++ 10 :: s) = p :: lines s := by
  induction p with
  | nil => simp [lines]
  | cons c p ih =>
    rw [List.cons_append, lines, if_neg (fun e => h (by simp [e])), ih (fun e => h (by simp [e]))]

/-- Facts about hex digits. -/
theorem hex_facts (c : UInt8) (x : Nat) (h : hexVal c = some x) : Chr.isSpace c = false ∧ c ≠ 45 ∧ c ≠ 43 ∧ c ≠ 0 ∧ Num.digit c = x ∧
    x < 16 ∧ Chr.toLower c ≠ 120 ∧ c ≠ 10 ∧ c ≠ 13 ∧ c ≠ 61 := by
  have : ∀ k : Fin 256, let c := UInt8.ofNat k; hexVal c = none ∨ (Chr.isSpace c = false ∧ c ≠ 45 ∧ c ≠ 43 ∧ c ≠ 0 ∧
      Num.digit c = (hexVal c).getD 0 ∧ (hexVal c).getD 0 < 16 ∧ Chr.toLower c ≠ 120 ∧ c ≠ 10 ∧ c ≠ 13 ∧ c ≠ 61) := by decide +kernel
  have h' := this ⟨c.toNat, c.toNat_lt⟩
  simpa only [UInt8.ofNat_toNat, h, Option.getD_some, reduceCtorEq, false_or] using h'

theorem readInt_hex {a b : UInt8} {x y : Nat} (ha : hexVal a = some x) (hb : hexVal b = some y) (s : List UInt8) :
    readInt (a :: b :: s) 2 16 = some (some (((16 * x + y : Nat) : Int), s)) := by
  obtain ⟨a1, a2, a3, a4, a5, a6, a7, _⟩ := hex_facts a x ha
  obtain ⟨b1, b2, b3, b4, b5, b6, b7, _⟩ := hex_facts b y hb
  have hp : Num.hexPrefix (a :: b :: (s ++ [0])) 2 = some false := by
    have h1 : (Chr.toLower b != Chr.toLower 120) = true := by
      rw [show Chr.toLower 120 = 120 from by decide]; simpa using b7
    have h2 : Num.eqLoop (a :: b :: (s ++ [0])) Num.zeroX 2 0 false = some (true, 2) := by
      simp only [Num.eqLoop, Num.zeroX, List.getElem?_cons_zero, List.getElem?_cons_succ, Option.bind_eq_bind, Option.bind_some, if_neg a4, if_neg b4,
        h1, Bool.or_true]
      rfl
    rw [Num.hexPrefix, if_pos (by omega), Num.caseEqMax, h2]
    rfl
  have hu : Num.toUint64Int (a :: b :: (s ++ [0])) 2 16 = some (.success, 16 * x + y, s ++ [0]) := by
    unfold Num.toUint64Int
    rw [if_neg (by omega)]
    simp only [Num.u64Loop, a4, b4, a5, b5, if_false]
    rw [if_neg (by omega), if_neg (by omega)]
    have e1 : (0 * 16 + x) % Num.w64 = x := by rw [Num.w64]; omega
    have e2 : (x * 16 + y) % Num.w64 = 16 * x + y := by rw [Num.w64]; omega
    simp only [e1, e2]
    have e3 : decide (x < 0) = false := by simp
    have e4 : decide (16 * x + y < x) = false := by simp; omega
    simp [e3, e4]
  have e : Num.toInt64Ex (a :: b :: (s ++ [0])) 2 16 = some (Num.Rv.success, some (((16 * x + y : Nat) : Int), s ++ [0])) := by
    unfold Num.toInt64Ex Num.prep
    simp only [Num.eatWs, a1, Num.sign, Num.autoBase]
    have hov : ¬ 9223372036854775807 < 16 * x + y := by omega
    simp [a2, a3, hp, hu, hov]
  unfold readInt
  rw [if_neg (by simp)]
  simp only [List.cons_append, if_neg (show ¬ (2 : Nat) = 0 by decide), e, Option.bind_some]
  simp only [List.length_cons, List.length_append, List.length_nil]
  rw [show s.length + 1 + 1 + 1 - (s.length + (0 + 1)) = 2 by omega]
  rfl

theorem qpStep_soft (eh : Eh) (s : List UInt8) (rc : Rc) (out : List UInt8) : qpStep eh (13 :: 10 :: s) rc out = some (false, rc, s, out) := by
  simp [qpStep]

theorem qpStep_esc {a b : UInt8} {x y : Nat} (ha : hexVal a = some x) (hb : hexVal b = some y) (eh : Eh) (s : List UInt8) (rc : Rc) (out : List UInt8) :
    qpStep eh (a :: b :: s) rc out = some (false, rc, s, out ++ [UInt8.ofNat (16 * x + y)]) := by
  have a9 := (hex_facts a x ha).2.2.2.2.2.2.2.2.1
  have hlt := (hex_facts a x ha).2.2.2.2.2.1
  have hlt' := (hex_facts b y hb).2.2.2.2.2.1
  rw [qpStep, if_neg (by simp), if_neg (by simp [a9]), readInt_hex ha hb]
  simp only [Option.bind_some]
  have : (((16 * x + y : Nat) : Int) % 256).toNat = 16 * x + y := by omega
  rw [this]

/-- The plain characters in front. -/
theorem means_plain {p q t : List UInt8} (hp : 61 ∉ p) (h : Means (p ++ q) t) : ∃ u, t = p ++ u ∧ Means q u := by
  induction p generalizing t with
  | nil => exact ⟨t, rfl, h⟩
  | cons c p ih =>
    rw [List.cons_append] at h
    generalize hr : p ++ q = r at h ih
    cases h with
    | soft => exact absurd (List.mem_cons_self) hp
    | esc => exact absurd (List.mem_cons_self) hp
    | lit _ h =>
      obtain ⟨u, h1, h2⟩ := ih (fun e => hp (List.mem_cons_of_mem _ e)) h
      exact ⟨u, by rw [h1]; rfl, h2⟩

theorem first_eq {s : List UInt8} {k : Nat} (h : Parser.Scan.First s [61] k) : ∃ q, s = s.take k ++ 61 :: q ∧ 61 ∉ s.take k ∧ k ≤ s.length := by
  obtain ⟨⟨p, q, h1, h2⟩, h3⟩ := h
  have e : s.take k = p := by rw [h1, ← h2, List.append_assoc, List.take_left]
  refine ⟨q, by rw [e, h1]; simp, ?_, ?_⟩
  · rw [e]
    intro hm
    obtain ⟨p1, p2, hp⟩ := List.append_of_mem hm
    have := h3 p1 (p2 ++ 61 :: q) (by rw [h1, hp]; simp)
    rw [← h2, hp] at this
    simp at this
    omega
  · rw [h1, ← h2]; simp

theorem dec_means (eh : Eh) : ∀ (n : Nat) (s t : List UInt8), s.length ≤ n → Means s t → ∀ fuel out, s.length < fuel →
    qpDecLoop eh fuel s .success out = some (.success, out ++ t) := by
  intro n
  induction n with
  | zero =>
    intro s t hn h fuel out hf
    cases h with
    | nil =>
      cases fuel with
      | zero => omega
      | succ fuel => simp [qpDecLoop, Parser.Scan.untilLen, Mem.mem, qpEnd]
    | _ => simp at hn
  | succ n ih =>
    intro s t hn h fuel out hf
    cases fuel with
    | zero => omega
    | succ fuel =>
    obtain ⟨len, h1, h2⟩ := Parser.Scan.until_correct s [61] false (by simp)
    rw [qpDecLoop, h1]
    simp only [Option.bind_some]
    rcases h2 with ⟨k, hk, e⟩ | ⟨hno, e⟩
    · obtain ⟨q, h3, h4, h5⟩ := first_eq hk
      have e : len = k := by simpa using e
      subst e
      rw [h3] at h
      obtain ⟨u, hu, hm⟩ := means_plain h4 h
      have hd : s.drop len = 61 :: q := by
        have : s.drop len = (s.take len ++ 61 :: q).drop len := by rw [← h3]
        rw [this, List.drop_left' (by rw [List.length_take]; omega)]
      have hl : s.length = len + 1 + q.length := by
        have := congrArg List.length hd
        simp only [List.length_drop, List.length_cons] at this
        omega
      rw [hd]
      simp only []
      rw [if_neg (fun h => h.1 rfl)]
      have tail : ∀ (s' u' o : List UInt8), s'.length ≤ n → s'.length < fuel → Means s' u' →
          (if (false = true ∨ s' = []) then some (qpEnd .success s' o) else qpDecLoop eh fuel s' .success o) = some (.success, o ++ u') := by
        intro s' u' o l1 l2 hm'
        by_cases hs : s' = []
        · subst hs
          cases hm'
          simp [qpEnd]
        · rw [if_neg (by simp [hs])]
          exact ih s' u' l1 hm' fuel o l2
      cases hm with
      | @soft q' u hm =>
        simp only [List.length_cons] at hl
        rw [qpStep_soft]
        simp only [Option.bind_some]
        rw [tail _ u _ (by omega) (by omega) hm, hu, List.append_assoc]
      | @esc a b x y q' u ha hb hm =>
        simp only [List.length_cons] at hl
        rw [qpStep_esc ha hb]
        simp only [Option.bind_some]
        rw [tail _ u _ (by omega) (by omega) hm, hu]
        simp
      | lit h => exact absurd rfl h
    · have hn61 : 61 ∉ s := by
        intro hm
        obtain ⟨p1, p2, hp⟩ := List.append_of_mem hm
        exact hno p1 p2 (by rw [hp]; simp)
      have ht : t = s := by
        obtain ⟨u, h1, h2⟩ := means_plain (q := []) hn61 (by simpa using h)
        cases h2; simpa using h1
      subst e
      rw [ht]
      cases s with
      | nil => simp [qpEnd]
      | cons c s =>
        have hc : c ≠ 61 := fun e => hn61 (by simp [e])
        simp [hc, qpEnd]

/-! ### The encoder -/

/-- One encoded character. -/
theorem enc_char (c : UInt8) (hc : c < 128) (s : List UInt8) (cnt : Nat) (out : List UInt8) : ∃ w, 
    qpEncLoop (c :: s) cnt out = qpEncLoop s (qpWrap c (cnt + w.length)).1 (out ++ w ++ (qpWrap c (cnt + w.length)).2) ∧
    (c = 10 → w = [10]) ∧ (c ≠ 10 → 10 ∉ w) ∧ w.length ≤ 3 ∧ (∀ e t, Means e t → Means (w ++ e) (c :: t)) := by
  by_cases he : qpEsc c = true
  · have hn : ¬ c ≥ 128 := UInt8.not_le.2 hc
    refine ⟨[61, hexDig.getD (c.toNat / 16) 0, hexDig.getD (c.toNat % 16) 0], ?_, ?_, ?_, by simp, ?_⟩
    · rw [qpEncLoop, if_pos he, qpHex, if_neg hn]
      rfl
    · intro e; rw [e] at he; exact absurd he (by decide)
    · intro _ hm
      have : ∀ k : Fin 256, 10 ∉ [61, hexDig.getD (k.1 / 16) 0, hexDig.getD (k.1 % 16) 0] := by decide +kernel
      exact this ⟨c.toNat, c.toNat_lt⟩ hm
    · intro e t h
      have : ∀ k : Fin 256, hexVal (hexDig.getD (k.1 / 16) 0) = some (k.1 / 16) ∧ hexVal (hexDig.getD (k.1 % 16) 0) = some (k.1 % 16) := by decide +kernel
      obtain ⟨h1, h2⟩ := this ⟨c.toNat, c.toNat_lt⟩
      have ec : c = UInt8.ofNat (16 * (c.toNat / 16) + c.toNat % 16) := by rw [Nat.div_add_mod, UInt8.ofNat_toNat]
      have := Means.esc h1 h2 h
      rw [← ec] at this
      exact this
  · refine ⟨[c], ?_, ?_, ?_, by simp, ?_⟩
    · rw [qpEncLoop, if_neg he]; rfl
    · intro e; rw [e]
    · intro h; simp [Ne.symm h]
    · intro e t h
      refine .lit ?_ h
      intro e; rw [e] at he; exact absurd rfl he

theorem chomp_le (l : List UInt8) : (chomp l).length ≤ l.length := by
  unfold chomp
  split
  · simp
  · exact Nat.le_refl _

/-- The loop of the encoder, with `p` on the present line. -/
theorem enc_spec (s : List UInt8) (hs : ∀ c ∈ s, c < 128) : ∀ (p out : List UInt8), p.length ≤ 72 → 10 ∉ p →
    ∃ e, qpEncLoop s p.length out = some (out ++ e) ∧ Means e s ∧ ∀ l ∈ lines (p ++ e), (chomp l).length ≤ 76 := by
  induction s with
  | nil =>
    intro p out hp h10
    refine ⟨[], by simp [qpEncLoop], .nil, ?_⟩
    rw [List.append_nil, lines_last h10]
    intro l hl
    rw [List.mem_singleton.1 hl]
    exact Nat.le_trans (chomp_le p) (by omega)
  | cons c s ih =>
    intro p out hp h10
    have ih := ih (fun c hc => hs c (List.mem_cons_of_mem _ hc))
    obtain ⟨w, h1, h2, h3, h4, h5⟩ := enc_char c (hs c List.mem_cons_self) s p.length out
    rw [h1]
    by_cases hc : c = 10
    · have hw := h2 hc
      obtain ⟨e, q1, q2, q3⟩ := ih [] (out ++ w) (by simp) (by simp)
      have hq : qpWrap c (p.length + w.length) = (0, []) := by simp [qpWrap, hc]
      rw [hq]
      refine ⟨w ++ e, ?_, h5 e s q2, ?_⟩
      · simp only [List.append_nil]; rw [← List.append_assoc]; exact q1
      · rw [hw, List.cons_append, List.nil_append, lines_lf h10]
        intro l hl
        rcases List.mem_cons.1 hl with h | h
        · rw [h]; exact Nat.le_trans (chomp_le p) (by omega)
        · exact q3 l h
    · by_cases hw : p.length + w.length > 72
      · have hq : qpWrap c (p.length + w.length) = (0, [61, 13, 10]) := by simp [qpWrap, hc, hw]
        obtain ⟨e, q1, q2, q3⟩ := ih [] (out ++ w ++ [61, 13, 10]) (by simp) (by simp)
        rw [hq]
        refine ⟨w ++ [61, 13, 10] ++ e, ?_, ?_, ?_⟩
        · rw [← List.append_assoc, ← List.append_assoc]; exact q1
        · rw [List.append_assoc]; exact h5 _ s (.soft q2)
        · have : p ++ (w ++ [61, 13, 10] ++ e) = (p ++ w ++ [61, 13]) ++ 10 :: e := by simp
          rw [this, lines_lf (by simp [h10, h3 hc])]
          intro l hl
          rcases List.mem_cons.1 hl with h | h
          · rw [h, chomp, if_pos (by simp), List.length_dropLast]
            simp only [List.length_append, List.length_cons, List.length_nil]
            omega
          · exact q3 l h
      · have hq : qpWrap c (p.length + w.length) = (p.length + w.length, []) := by simp [qpWrap, hc, hw]
        obtain ⟨e, q1, q2, q3⟩ := ih (p ++ w) (out ++ w) (by simp; omega) (by simp [h10, h3 hc])
        rw [hq]
        refine ⟨w ++ e, ?_, h5 e s q2, ?_⟩
        · simp only [List.append_nil]; rw [← List.append_assoc, ← List.length_append]; exact q1
        · rw [← List.append_assoc]; exact q3

/-! ### C52 -/

/-- **C52**, for ASCII.  Decoding the quoted-printable encoding of an ASCII text gives the text back with every error handler,
and no line of the encoding, without its line break, is longer than 76 characters.  Missing: other bytes
(`qp_bytes_fails`). -/
theorem qp_roundtrip_partial (s : List UInt8) (hs : ∀ c ∈ s, c < 128) : ∃ e, qpEncode s = some e ∧
    (∀ eh, qpDecode eh e = some (.success, s)) ∧ ∀ l ∈ lines e, (chomp l).length ≤ 76 := by
  obtain ⟨e, h1, h2, h3⟩ := enc_spec s hs [] [] (by simp) (by simp)
  refine ⟨e, by simpa [qpEncode] using h1, fun eh => ?_, by simpa using h3⟩
  rw [qpDecode, dec_means eh e.length e s (Nat.le_refl _) h2 _ _ (by omega), List.nil_append]

example : qpEncode [97, 61, 10, 1] = some [97, 61, 51, 68, 10, 61, 48, 49] := by decide

/-- A text with a byte from 128 on makes the encoder read outside its table, wherever the byte is. -/
theorem qp_bytes_fails (s : List UInt8) (h : ∃ c ∈ s, c ≥ 128) : qpEncode s = none := by
  have : ∀ (cnt : Nat) (out : List UInt8), qpEncLoop s cnt out = none := by
    induction s with
    | nil => obtain ⟨c, hc, _⟩ := h; cases hc
    | cons c s ih =>
      intro cnt out
      by_cases hc : c ≥ 128
      · have he : qpEsc c = true := by
          have : ∀ k : Fin 256, UInt8.ofNat k ≥ 128 → qpEsc (UInt8.ofNat k) = true := by decide +kernel
          have h := this ⟨c.toNat, c.toNat_lt⟩
          simp only [UInt8.ofNat_toNat] at h
          exact h hc
        rw [qpEncLoop, if_pos he, qpHex, if_pos hc]
        rfl
      · obtain ⟨d, hd, hd'⟩ := h
        rcases List.mem_cons.1 hd with e | e
        · rw [e] at hd'; exact absurd hd' hc
        · obtain ⟨w, h1, _⟩ := enc_char c (UInt8.not_le.1 hc) s cnt out
          rw [h1]
          exact ih ⟨d, e, hd'⟩ _ _
  exact this 0 []

/-- Every text that has a meaning decodes to it, with every error handler. -/
theorem qp_decode_correct (s t : List UInt8) (h : Means s t) (eh : Eh) : qpDecode eh s = some (.success, t) := by
  rw [qpDecode, dec_means eh s.length s t (Nat.le_refl _) h _ _ (by omega), List.nil_append]

example : Means [97, 61, 13, 10, 61, 52, 98] [97, 75] := .lit (by decide) (.soft (.esc (x := 4) (y := 11) (by decide) (by decide) .nil))

/-- Bad escapes are not all detected: `=5g` is read as the byte 5 and a `g`, `=-1` as the byte 255, and nothing is reported. -/
theorem qp_decode_fails : qpDecode .fail [61, 53, 103] = some (.success, [5, 103]) ∧ qpDecode .fail [61, 45, 49] = some (.success, [255]) := by decide +kernel

end Verif.Textcodec.Qp
