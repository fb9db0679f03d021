import Verif.StrFmt.Sim
/-! Formatted output to a growing buffer, function by function, against a small specification of what a directive shows. -/
namespace Verif.StrFmt

/-! ### Specification: numerals and padding -/

/-- The character of a digit. -/
def digit (upper : Bool) (d : Nat) : UInt8 := if d < 10 then (48 + d).toUInt8 else ((if upper then 55 else 87) + d).toUInt8

/-- The numeral of a number. -/
def numeral (base : Nat) (upper : Bool) (n : Nat) : List UInt8 :=
  if h : 2 ≤ base ∧ base ≤ n then numeral base upper (n / base) ++ [digit upper (n % base)] else [digit upper n]
termination_by n
decreasing_by exact Nat.div_lt_self (by omega) (by omega)

/-- A text in a field of a width. -/
def field (left : Bool) (fill : UInt8) (w : Nat) (txt : List UInt8) : List UInt8 :=
  if left then txt ++ List.replicate (w - txt.length) fill else List.replicate (w - txt.length) fill ++ txt

/-- A number in a field: zeros go between sign or prefix and digits, blanks go outside. -/
def numField (left zero : Bool) (w : Nat) (pre digits : List UInt8) : List UInt8 :=
  if zero then pre ++ List.replicate (w - pre.length - digits.length) 48 ++ digits else field left 32 w (pre ++ digits)

/-! ### The functions -/

theorem addBytes_mbuf (t b : List UInt8) : addBytes (.mbuf (some t)) b = some (.mbuf (some (t ++ b)), (b.length : Int)) := by
  unfold addBytes
  by_cases h : b.length = 0
  · rw [if_pos h]
    have : b = [] := List.eq_nil_of_length_eq_zero h
    subst this; simp
  · rw [if_neg h]

theorem addByte_mbuf (t : List UInt8) (b : UInt8) : addByte (.mbuf (some t)) b = some (.mbuf (some (t ++ [b])), 1) := addBytes_mbuf t [b]

theorem fillLoop_mbuf (b : UInt8) : ∀ n t, fillLoop b n (.mbuf (some t)) = some (.mbuf (some (t ++ List.replicate n b)), true) := by
  intro n
  induction n with
  | zero => intro t; simp [fillLoop]
  | succ n ih =>
    intro t
    unfold fillLoop
    rw [addByte_mbuf, Option.bind_some, if_neg (by simp), ih, List.replicate_succ]
    simp

theorem addFill_mbuf (t : List UInt8) (b : UInt8) (n : Nat) : addFill (.mbuf (some t)) b n = some (.mbuf (some (t ++ List.replicate n b)), (n : Int)) := by
  unfold addFill
  rw [fillLoop_mbuf]; rfl

/-- `NULL` as a text. -/
def nullText (b : Option (List UInt8)) : List UInt8 := b.getD [60, 78, 85, 76, 76, 62]

theorem addJust_mbuf (t : List UInt8) (b : Option (List UInt8)) (c : UInt8) (w : Nat) (l : Bool) :
    addJust (.mbuf (some t)) b c w l = some (.mbuf (some (t ++ field l c w (nullText b))), ((field l c w (nullText b)).length : Int)) := by
  have e : addJust (.mbuf (some t)) b c w l = addJust (.mbuf (some t)) (some (nullText b)) c w l := by cases b <;> rfl
  rw [e]
  unfold addJust
  dsimp only
  generalize nullText b = x
  have en : (if x.length ≥ w then 0 else w - x.length) = w - x.length := by split <;> omega
  rw [en]
  cases l
  · by_cases h : w - x.length > 0
    · simp [h, addFill_mbuf, addBytes_mbuf, field]
      omega
    · have h0 : w - x.length = 0 := by omega
      simp [h0, addBytes_mbuf, field]
  · by_cases h : w - x.length > 0
    · simp [h, addFill_mbuf, addBytes_mbuf, field]
    · have h0 : w - x.length = 0 := by omega
      simp [h0, addBytes_mbuf, field]

theorem digit_char (upper : Bool) (d : Nat) (h : d < 16) : (baseChars upper)[d]! = digit upper d := by
  have : ∀ u : Bool, ∀ d : Fin 16, (baseChars u)[d.1]! = digit u d.1 := by decide
  exact this upper ⟨d, h⟩

theorem digitLoop_eq (base : Nat) (upper : Bool) (h2 : 2 ≤ base) (h16 : base ≤ 16) : ∀ f n, n < base ^ (f + 1) →
    digitLoop base (baseChars upper) f n = (numeral base upper n).reverse := by
  intro f
  induction f with
  | zero =>
    intro n hn
    rw [numeral, dif_neg (by simp at hn; omega)]
    have : n < base := by simpa using hn
    simp [digitLoop, Nat.mod_eq_of_lt this, digit_char upper n (by omega)]
  | succ f ih =>
    intro n hn
    unfold digitLoop
    rw [numeral]
    have hm : n % base < 16 := Nat.lt_of_lt_of_le (Nat.mod_lt _ (by omega)) h16
    by_cases hb : base ≤ n
    · have hpos : 0 < n / base := Nat.div_pos hb (by omega)
      rw [if_pos hpos, dif_pos ⟨h2, hb⟩, List.reverse_append, digit_char upper _ hm]
      have : n / base < base ^ (f + 1) := by
        rw [Nat.div_lt_iff_lt_mul (by omega)]
        rwa [Nat.pow_succ] at hn
      rw [ih _ this]
      rfl
    · rw [dif_neg (by omega), Nat.div_eq_of_lt (by omega), if_neg (by omega), Nat.mod_eq_of_lt (by omega), digit_char upper n (by omega)]
      rfl

theorem revLoop_get (n : Nat) : ∀ k (l : List UInt8), l.length = n → k ≤ n / 2 → 0 < n → ∃ l', revLoop (n - 1) k l = some l' ∧ l'.length = n ∧
    ∀ j, j < n → l'[j]? = if j < k ∨ n - 1 - j < k then l[n - 1 - j]? else l[j]? := by
  intro k
  induction k with
  | zero => intro l hl hk hn; exact ⟨l, rfl, hl, fun j hj => by simp⟩
  | succ k ih =>
    intro l hl hk hn
    unfold revLoop
    rw [if_pos (by omega)]
    obtain ⟨l', e, hlen, hg⟩ := ih ((l.set k l[n - 1 - k]!).set (n - 1 - k) l[k]!) (by simp [hl]) (by omega) hn
    refine ⟨l', e, hlen, fun j hj => ?_⟩
    rw [hg j hj]
    have hk2 : k < n - 1 - k ∨ k = n - 1 - k := by omega
    have gk : l[k]? = some l[k]! := by rw [getElem!_pos l k (by omega)]; exact List.getElem?_eq_getElem _
    have gk2 : l[n - 1 - k]? = some l[n - 1 - k]! := by rw [getElem!_pos l (n - 1 - k) (by omega)]; exact List.getElem?_eq_getElem _
    simp only [List.getElem?_set, List.length_set, hl]
    by_cases h1 : j < k ∨ n - 1 - j < k
    · rw [if_pos h1, if_neg (by omega), if_neg (by omega), if_pos (by omega)]
    · rw [if_neg h1]
      by_cases h2 : j = k
      · subst h2
        by_cases h3 : n - 1 - j = j
        · rw [if_pos h3, if_pos (by omega), if_pos (by omega), h3, gk]
        · rw [if_neg h3, if_pos rfl, if_pos (by omega), if_pos (by omega), gk2]
      · by_cases h3 : n - 1 - k = j
        · rw [if_pos h3, if_pos (by omega), if_pos (by omega), show n - 1 - j = k by omega, gk]
        · rw [if_neg h3, if_neg (by omega), if_neg (by omega)]

theorem reverseBytes_eq (l : List UInt8) : reverseBytes l = some l.reverse := by
  unfold reverseBytes
  by_cases h : l.length = 0
  · rw [if_pos h, List.eq_nil_of_length_eq_zero h]; rfl
  · rw [if_neg h]
    obtain ⟨l', e, hlen, hg⟩ := revLoop_get l.length (l.length / 2) l rfl (Nat.le_refl _) (by omega)
    rw [e]
    congr 1
    apply List.ext_getElem?
    intro j
    by_cases hj : j < l.length
    · rw [hg j hj, List.getElem?_reverse hj]
      split
      · rfl
      · rw [show l.length - 1 - j = j by omega]
    · rw [List.getElem?_eq_none (by omega), List.getElem?_eq_none (by simp; omega)]

theorem integerToStr_eq (n base : Nat) (upper : Bool) (h2 : 8 ≤ base) (h16 : base ≤ 16) (hn : n < 2 ^ 64) :
    integerToStr n base upper 32 = some (numeral base upper n) := by
  unfold integerToStr
  have : n < base ^ 31 := by
    have : 8 ^ 31 ≤ base ^ 31 := Nat.pow_le_pow_left h2 31
    omega
  rw [digitLoop_eq base upper (by omega) h16 _ _ this, reverseBytes_eq, List.reverse_reverse]

theorem numeral_length (base : Nat) (upper : Bool) (h8 : 8 ≤ base) : ∀ k n, n < 8 ^ (k + 1) → (numeral base upper n).length ≤ k + 1 := by
  intro k
  induction k with
  | zero =>
    intro n hn
    rw [numeral, dif_neg (by omega)]
    simp
  | succ k ih =>
    intro n hn
    rw [numeral]
    split
    · rw [List.length_append]
      have : n / base < 8 ^ (k + 1) := by
        rw [Nat.div_lt_iff_lt_mul (by omega)]
        have : 8 ^ (k + 1) * 8 ≤ 8 ^ (k + 1) * base := Nat.mul_le_mul_left _ h8
        rw [Nat.pow_succ] at hn
        omega
      have := ih _ this
      simp; omega
    · simp

theorem numeral_pos (base : Nat) (upper : Bool) (n : Nat) : 0 < (numeral base upper n).length := by
  rw [numeral]; split <;> simp

/-- The sign that is shown. -/
def signText (pos : Bool) (st : Sign) : List UInt8 :=
  if pos then match st with | .neg => [] | .negpos => [43] | .posspace => [32] else [45]

theorem addSign_mbuf (cap : Nat) (t b : List UInt8) (pos : Bool) (st : Sign) (c : UInt8) (w : Nat) (h : b.length + 2 ≤ cap) :
    addSign cap (.mbuf (some t)) b pos st c w =
      if c = 48 then some (.mbuf (some (t ++ signText pos st)), b, w - (signText pos st).length, ((signText pos st).length : Int))
      else some (.mbuf (some t), signText pos st ++ b, w, 0) := by
  unfold addSign
  dsimp only
  rw [if_pos h]
  have e : w - min w 1 = w - 1 := by omega
  cases pos <;> cases st <;> simp [addByte_mbuf, signText, e]

/-- The prefix that is shown. -/
def prefixText (base : Nat) (upper : Bool) (b : List UInt8) : List UInt8 :=
  if base = 8 then if b.head? = some 48 then [] else [48] else if base = 16 then if upper then [48, 88] else [48, 120] else []

theorem addPrefix_mbuf (cap : Nat) (t b : List UInt8) (base : Nat) (upper : Bool) (c : UInt8) (w : Nat) (h : b.length + 3 ≤ cap) :
    addPrefix cap (.mbuf (some t)) b base upper c w =
      if c = 48 then some (.mbuf (some (t ++ prefixText base upper b)), b, w - (prefixText base upper b).length, ((prefixText base upper b).length : Int))
      else some (.mbuf (some t), prefixText base upper b ++ b, w, 0) := by
  have e : prefixOf b base upper = prefixText base upper b := by
    unfold prefixText prefixOf
    by_cases hb : b.head? = some 48 <;> simp [hb]
  have hl : (prefixText base upper b).length ≤ 2 := by
    unfold prefixText
    split
    · split <;> simp
    · split
      · split <;> simp
      · simp
  unfold addPrefix
  simp only [e]
  generalize prefixText base upper b = x at hl
  by_cases hx : x = []
  · rw [if_pos hx]; subst hx; simp
  · rw [if_neg hx]
    have e2 : w - min w x.length = w - x.length := by omega
    by_cases hc : c = 48
    · rw [if_pos hc, if_pos hc, addJust_mbuf]
      simp [field, nullText, e2]
    · rw [if_neg hc, if_neg hc, if_pos (by omega)]

/-- What an integer shows. -/
def intText (pre digits : List UInt8) (c : UInt8) (w : Nat) (l : Bool) : List UInt8 :=
  if c = 48 then pre ++ field l 48 (w - pre.length) digits else field l c w (pre ++ digits)

theorem addIntegerJust_mbuf (t : List UInt8) (n base : Nat) (pos : Bool) (st : Sign) (pre upper : Bool) (c : UInt8) (w : Nat) (l : Bool)
    (h8 : 8 ≤ base) (h16 : base ≤ 16) (hn : n < 2 ^ 64) (hs : pre = true → signText pos st = []) :
    addIntegerJust (.mbuf (some t)) n base pos st pre upper c w l =
      (let x := intText (signText pos st ++ if pre then prefixText base upper (numeral base upper n) else []) (numeral base upper n) c w l
       some (.mbuf (some (t ++ x)), (x.length : Int))) := by
  have hlen := numeral_length base upper h8 21 n (by omega)
  unfold addIntegerJust
  rw [if_neg (by omega), integerToStr_eq n base upper h8 h16 hn, Option.bind_some, addSign_mbuf _ _ _ _ _ _ _ (by omega)]
  by_cases hc : c = 48
  · subst hc
    simp only [if_true, Option.bind_some]
    cases pre
    · simp [addJust_mbuf, nullText, intText]
    · have := hs rfl
      simp [addPrefix_mbuf 32 _ _ _ _ _ _ (show (numeral base upper n).length + 3 ≤ 32 by omega), addJust_mbuf, nullText, intText, this]
  · simp only [if_neg hc, Option.bind_some]
    cases pre
    · simp [addJust_mbuf, nullText, intText, hc]
    · have := hs rfl
      simp [addPrefix_mbuf 32 _ _ _ _ _ _ (show (numeral base upper n).length + 3 ≤ 32 by omega), addJust_mbuf, nullText, intText, this, hc]

theorem addDoubleJust_mbuf (t : List UInt8) (d : Dbl) (st : Sign) (prec : Nat) (c : UInt8) (w : Nat) (l : Bool) (hd : ∀ k, k ≤ 100 → (d.text k).length ≤ 510) :
    addDoubleJust (.mbuf (some t)) d st prec c w l =
      (let x := intText (signText d.pos st) (d.text (min prec 100)) c w l
       some (.mbuf (some (t ++ x)), (x.length : Int))) := by
  have e : (if prec > 100 then 100 else prec) = min prec 100 := by split <;> omega
  unfold addDoubleJust
  simp only [e]
  have := hd (min prec 100) (by omega)
  rw [addSign_mbuf _ _ _ _ _ _ _ (by omega)]
  by_cases hc : c = 48
  · subst hc
    simp [addJust_mbuf, nullText, intText]
  · simp [addJust_mbuf, nullText, intText, hc]

end Verif.StrFmt
