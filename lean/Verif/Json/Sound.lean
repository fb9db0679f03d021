import Verif.Json.Props
/-! C49: the texts the reader accepts.  The grammar of what it accepts, and the lemmas; the property theorems are in `SoundProps`. -/
namespace Verif.Json
open Verif.Num (digitVal value)
open Verif.Utf8 (utf8 Scalar Allowed)

/-! ### The grammar -/

/-- White space of the C library. -/
def Space (c : UInt8) : Prop := c = 32 ∨ 9 ≤ c ∧ c ≤ 13

/-- An escape of the form `\uXXXX`: the four bytes are hexadecimal digits, or fewer followed by a zero byte. -/
def Hex4Cut (x : List UInt8) (n : Nat) : Prop :=
  ∃ ds, ds ≠ [] ∧ (∀ c ∈ ds, digitVal c < 16) ∧ x.length = 4 ∧ (x = ds ∨ ∃ y, x = ds ++ 0 :: y) ∧ n = value 16 ds

/-- The text between quotes and the bytes it stands for: any bytes but control characters, quotes and backslashes. -/
inductive LooseBody : List UInt8 → List UInt8 → Prop
  | nil : LooseBody [] []
  | plain {c : UInt8} {t s : List UInt8} (h1 : 32 ≤ c) (h2 : c ≠ 34) (h3 : c ≠ 92) (h : LooseBody t s) : LooseBody (c :: t) (c :: s)
  | two {e b : UInt8} {t s : List UInt8} (he : (e, b) ∈ escapes) (h : LooseBody t s) : LooseBody (92 :: e :: t) (b :: s)
  | uni {x t s : List UInt8} {cp : Nat} (hx : Hex4Cut x cp) (ha : Allowed cp) (h : LooseBody t s) : LooseBody (92 :: 117 :: (x ++ t)) (utf8 cp ++ s)

/-- The string is cut at its first zero byte. -/
def LooseStr (t s : List UInt8) : Prop := ∃ z, LooseBody t (s ++ z) ∧ (0 : UInt8) ∉ s ∧ (z = [] ∨ z.head? = some 0)

/-- What the library reads as an integer: white space, a sign and digits. -/
def LooseInt (t : List UInt8) : Prop :=
  ∃ ws sg ds, t = ws ++ (sg ++ ds) ∧ (∀ c ∈ ws, Space c) ∧ (sg = [] ∨ sg = [43] ∨ sg = [45]) ∧ ds ≠ [] ∧ ∀ c ∈ ds, Digit c

/-- Numbers: an integer, then perhaps a point and an integer, then perhaps an exponent. -/
def LooseNum (t : List UInt8) : Prop :=
  ∃ i f x, t = i ++ (f ++ x) ∧ LooseInt i ∧ (∀ c, i.head? = some c → c = 45 ∨ Digit c) ∧ (f = [] ∨ ∃ f', f = 46 :: f' ∧ LooseInt f') ∧
    (x = [] ∨ ∃ e x', x = e :: x' ∧ (e = 101 ∨ e = 69) ∧ LooseInt x')

/-- A number node. -/
def NumNode : Json → Prop
  | .int _ => True
  | .dec _ => True
  | _ => False

/-- What the reader accepts when comments are not allowed: commas may be missing, white space includes vertical tabs and form feeds,
numbers and strings are as above, and of members with the same name the last counts, those with an empty name are dropped. -/
def loose : Grammar where
  skip w := ∀ c ∈ w, Space c
  sep s := s = [44] ∨ s = []
  str := LooseStr
  num t v := LooseNum t ∧ NumNode v
  build ms l := (l.map (·.1)).Nodup ∧ ∀ k v, (k, v) ∈ l ↔ k ≠ [] ∧ ∃ a b, ms = a ++ (k, v) :: b ∧ k ∉ b.map (·.1)

/-! ### White space -/

theorem space_iff (c : UInt8) : Chr.isSpace c = true ↔ Space c := by
  have : ∀ n : Fin 256, Chr.isSpace (UInt8.ofNat n.val) = true ↔ (UInt8.ofNat n.val = 32 ∨ 9 ≤ UInt8.ofNat n.val ∧ UInt8.ofNat n.val ≤ 13) := by decide +kernel
  have := this ⟨c.toNat, c.toNat_lt⟩
  simp only [UInt8.ofNat_toNat] at this
  exact this

theorem eatWs_spec (p : List UInt8) : ∃ w, p = w ++ eatWs p ∧ (∀ c ∈ w, Space c) ∧ ∀ c, (eatWs p).head? = some c → ¬ Space c := by
  unfold eatWs
  induction p with
  | nil => exact ⟨[], rfl, by simp, by simp⟩
  | cons c p ih =>
    by_cases h : Chr.isSpace c = true
    · obtain ⟨w, h1, h2, h3⟩ := ih
      rw [List.dropWhile_cons_of_pos h]
      refine ⟨c :: w, by rw [List.cons_append, ← h1], ?_, h3⟩
      intro x hx
      rcases List.mem_cons.1 hx with rfl | hx
      · exact (space_iff _).1 h
      · exact h2 x hx
    · rw [List.dropWhile_cons_of_neg h]
      refine ⟨[], rfl, by simp, ?_⟩
      intro x hx
      simp only [List.head?_cons, Option.some.injEq] at hx
      subst hx
      exact fun e => h ((space_iff _).2 e)

theorem eatIgnored_loose {fl : RFlags} (hc : fl.noComments = true) {p q : List UInt8} (h : eatIgnored fl p = some (.ok q)) :
    ∃ w, p = w ++ q ∧ (∀ c ∈ w, Space c) ∧ q = eatWs p := by
  unfold eatIgnored at h
  rw [if_pos hc] at h
  cases h
  obtain ⟨w, h1, h2, _⟩ := eatWs_spec p
  exact ⟨w, h1, h2, rfl⟩

/-! ### Integers -/

theorem num_eatWs_spec {s : List UInt8} : ∀ {len : Nat} {s' : List UInt8} {len' : Nat}, Num.eatWs s len = some (s', len') →
    ∃ ws, s = ws ++ s' ∧ (∀ c ∈ ws, Space c) ∧ ws.length + len' = len := by
  induction s with
  | nil => intro len s' len' h; cases h
  | cons c s ih =>
    intro len s' len' h
    rw [Num.eatWs] at h
    split at h
    · rename_i hc
      obtain ⟨ws, h1, h2, h3⟩ := ih h
      refine ⟨c :: ws, by rw [h1]; rfl, ?_, by simp only [List.length_cons]; omega⟩
      intro x hx
      rcases List.mem_cons.1 hx with rfl | hx
      · exact (space_iff _).1 hc.1
      · exact h2 x hx
    · cases h
      exact ⟨[], rfl, by simp, by simp⟩

theorem num_sign_spec {s s' : List UInt8} {len len' : Nat} {neg : Bool} (h : Num.sign s len = some (neg, s', len')) :
    ∃ sg, s = sg ++ s' ∧ (sg = [] ∨ sg = [43] ∨ sg = [45]) ∧ sg.length + len' = len := by
  unfold Num.sign at h
  split at h
  · cases h; exact ⟨[], rfl, Or.inl rfl, by simp⟩
  · cases s with
    | nil => cases h
    | cons c s =>
      simp only [List.getElem?_cons_zero, bind, Option.bind_some, List.drop_succ_cons, List.drop_zero] at h
      split at h
      · rename_i hc
        cases h
        rcases hc with rfl | rfl
        · exact ⟨[45], rfl, Or.inr (Or.inr rfl), by simp only [List.length_cons, List.length_nil]; omega⟩
        · exact ⟨[43], rfl, Or.inr (Or.inl rfl), by simp only [List.length_cons, List.length_nil]; omega⟩
      · cases h; exact ⟨[], rfl, Or.inl rfl, by simp⟩

theorem digit_ten {c : UInt8} (h : ¬ Num.digit c ≥ 10) : Digit c := by
  have : ∀ n : Fin 256, ¬ Num.digit (UInt8.ofNat n.val) ≥ 10 → Digit (UInt8.ofNat n.val) := by decide +kernel
  have := this ⟨c.toNat, c.toNat_lt⟩
  simp only [UInt8.ofNat_toNat] at this
  exact this h

theorem u64Loop_spec (s : List UInt8) : ∀ (len ret : Nat) (ov : Bool) {r : Nat} {o : Bool} {p : List UInt8}, Num.u64Loop 10 s len ret ov = some (r, o, p) →
    ∃ ds, s = ds ++ p ∧ (∀ c ∈ ds, Digit c) ∧ ds.length ≤ len ∧ (ds = [] → r = ret ∧ o = ov) := by
  induction s with
  | nil =>
    intro len ret ov r o p h
    cases len with
    | zero => rw [Num.u64Loop.eq_def] at h; cases h; exact ⟨[], rfl, by simp, by simp, fun _ => ⟨rfl, rfl⟩⟩
    | succ n => rw [Num.u64Loop.eq_def] at h; cases h
  | cons c s ih =>
    intro len ret ov r o p h
    cases len with
    | zero => rw [Num.u64Loop.eq_def] at h; cases h; exact ⟨[], rfl, by simp, by simp, fun _ => ⟨rfl, rfl⟩⟩
    | succ n =>
      rw [Num.u64Loop.eq_def] at h
      simp only [] at h
      split at h
      · cases h; exact ⟨[], rfl, by simp, by simp, fun _ => ⟨rfl, rfl⟩⟩
      · split at h
        · cases h; exact ⟨[], rfl, by simp, by simp, fun _ => ⟨rfl, rfl⟩⟩
        · rename_i hd
          obtain ⟨ds, h1, h2, h3, _⟩ := ih _ _ _ h
          refine ⟨c :: ds, by rw [h1]; rfl, ?_, by simp only [List.length_cons]; omega, by simp⟩
          intro x hx
          rcases List.mem_cons.1 hx with rfl | hx
          · exact digit_ten hd
          · exact h2 x hx

/-- What the integer parser takes. -/
theorem toInt64_loose {s e : List UInt8} {len : Nat} {rv : Num.Rv} {v : Int} (h : Num.toInt64Ex s len 10 = some (rv, some (v, e))) (hrv : rv ≠ .invalid) :
    ∃ t, s = t ++ e ∧ LooseInt t ∧ t.length ≤ len := by
  unfold Num.toInt64Ex at h
  split at h
  · cases h
  · simp only [bind] at h
    obtain ⟨⟨s1, len1, base, neg⟩, h1, h⟩ := Option.bind_eq_some_iff.1 h
    obtain ⟨⟨rv1, uval, e1⟩, h2, h⟩ := Option.bind_eq_some_iff.1 h
    unfold Num.prep at h1
    simp only [bind] at h1
    obtain ⟨⟨s2, len2⟩, g1, h1⟩ := Option.bind_eq_some_iff.1 h1
    obtain ⟨⟨neg3, s3, len3⟩, g2, h1⟩ := Option.bind_eq_some_iff.1 h1
    obtain ⟨base4, g3, h1⟩ := Option.bind_eq_some_iff.1 h1
    have hb : base4 = 10 := by
      unfold Num.autoBase at g3
      rw [if_neg (by decide)] at g3
      cases g3; rfl
    subst hb
    rw [if_neg (by decide)] at h1
    cases h1
    obtain ⟨ws, w1, w2, w3⟩ := num_eatWs_spec g1
    obtain ⟨sg, z1, z2, z3⟩ := num_sign_spec (s := s2) (len := len2) g2
    simp only [] at h2 h
    unfold Num.toUint64Int at h2
    rw [if_neg (by decide)] at h2
    simp only [bind] at h2
    obtain ⟨⟨ret, ov, p⟩, g4, h2⟩ := Option.bind_eq_some_iff.1 h2
    obtain ⟨ds, d1, d2, d3, d4⟩ := u64Loop_spec _ _ _ _ g4
    simp only [] at h2
    have hp : p = e1 ∧ ret = uval := by
      split at h2
      · cases h2; exact ⟨rfl, rfl⟩
      · split at h2
        · cases h2; exact ⟨rfl, rfl⟩
        · cases h2; exact ⟨rfl, rfl⟩
    obtain ⟨rfl, rfl⟩ := hp
    have he : p = e := by
      repeat' split at h
      all_goals (cases h; rfl)
    subst he
    refine ⟨ws ++ (sg ++ ds), by rw [w1, z1, d1]; simp, ⟨ws, sg, ds, rfl, w2, z2, ?_, d2⟩, by simp only [List.length_append]; omega⟩
    intro hds
    obtain ⟨r0, o0⟩ := d4 hds
    subst r0 o0
    subst hds
    simp only [List.nil_append] at d1
    subst d1
    simp only [Bool.false_eq_true, if_false, if_true] at h2
    cases h2
    simp only [Nat.not_lt_zero, and_false, gt_iff_lt, if_false, reduceCtorEq] at h
    apply hrv
    split at h <;> cases h <;> rfl

/-! ### Numbers -/

theorem fracLoop_end (p : List UInt8) : ∀ (n : Nat) (e : List UInt8) (tr : Bool) (ad : Int) (temp : Option (List UInt8)) {r},
    Decimal.fracLoop p n (some e) tr ad temp = some (some r) → r.2.2.1 = some e := by
  intro n
  induction n with
  | zero => intro e tr ad temp r h; rw [Decimal.fracLoop] at h; cases h; rfl
  | succ n ih =>
    intro e tr ad temp r h
    rw [Decimal.fracLoop] at h
    obtain ⟨⟨rv, o⟩, _, h⟩ := Option.bind_eq_some_iff.1 h
    cases o with
    | none => cases h
    | some o =>
      obtain ⟨v, t⟩ := o
      simp only [] at h
      split at h
      · cases h
      · split at h
        · exact ih _ _ _ _ h
        · cases h; rfl

theorem fracLoop_loose {p : List UInt8} {n : Nat} {tr : Bool} {ad : Int} {temp : Option (List UInt8)} {r}
    (h : Decimal.fracLoop p n none tr ad temp = some (some r)) : (n = 0 ∧ r.2.2.1 = none) ∨ ∃ t e, r.2.2.1 = some e ∧ p = t ++ e ∧ LooseInt t ∧ t.length ≤ n := by
  cases n with
  | zero => rw [Decimal.fracLoop] at h; cases h; exact Or.inl ⟨rfl, rfl⟩
  | succ n =>
    right
    rw [Decimal.fracLoop] at h
    obtain ⟨⟨rv, o⟩, h0, h⟩ := Option.bind_eq_some_iff.1 h
    cases o with
    | none => cases h
    | some o =>
      obtain ⟨v, t⟩ := o
      simp only [] at h
      split at h
      · cases h
      · rename_i hrv
        obtain ⟨u, h1, h2, h3⟩ := toInt64_loose h0 hrv
        split at h
        · exact ⟨u, t, fracLoop_end _ _ _ _ _ _ h, h1, h2, h3⟩
        · cases h; exact ⟨u, t, rfl, h1, h2, h3⟩

/-- An optional exponent. -/
def LooseExp (x : List UInt8) : Prop := x = [] ∨ ∃ e x', x = e :: x' ∧ (e = 101 ∨ e = 69) ∧ LooseInt x'

theorem lower_e {c : UInt8} (h : Chr.toLower c = 101) : c = 101 ∨ c = 69 := by
  have : ∀ n : Fin 256, Chr.toLower (UInt8.ofNat n.val) = 101 → UInt8.ofNat n.val = 101 ∨ UInt8.ofNat n.val = 69 := by decide +kernel
  have := this ⟨c.toNat, c.toNat_lt⟩
  simp only [UInt8.ofNat_toNat] at this
  exact this h

theorem scale_end {v d : Decimal.Dec} {tr : Bool} {x : Int} {e : List UInt8} {rv : Decimal.Rv} {o : Option (List UInt8)}
    (h : Decimal.scale v tr x e = some (rv, d, o)) (hrv : rv = .success ∨ rv = .truncation) : o = some e := by
  unfold Decimal.scale at h
  simp only [] at h
  obtain ⟨m, _, h⟩ := Option.bind_eq_some_iff.1 h
  cases m with
  | none => cases h; simp at hrv
  | some m =>
    simp only [] at h
    obtain ⟨r, _, h⟩ := Option.bind_eq_some_iff.1 h
    generalize (if r.1 = .invalid then (Decimal.Rv.invalid, v) else r) = r' at h
    split at h
    · cases h; simp at hrv
    · cases h; rfl

theorem expPart_loose {p after t e : List UInt8} (ha : after.head? = some 0) {v d : Decimal.Dec} {tr : Bool} {rv : Decimal.Rv} {o : Option (List UInt8)}
    (hs : p ++ after = t ++ e) (ht : t.length ≤ p.length) (h : Decimal.expPart (p ++ after) p.length v tr (some e) = some (rv, d, o))
    (hrv : rv = .success ∨ rv = .truncation) : ∃ x e', o = some e' ∧ e = x ++ e' ∧ LooseExp x ∧ (t ++ x).length ≤ p.length := by
  have hlen := congrArg List.length hs
  simp only [List.length_append] at hlen
  unfold Decimal.expPart at h
  simp only [] at h
  have done : ∀ {rv' : Decimal.Rv}, some (rv', v, some e) = some (rv, d, o) → ∃ x e', o = some e' ∧ e = x ++ e' ∧ LooseExp x ∧ (t ++ x).length ≤ p.length := by
    intro rv' h
    cases h
    exact ⟨[], e, rfl, rfl, Or.inl rfl, by simpa using ht⟩
  split at h
  · obtain ⟨c, hc, h⟩ := Option.bind_eq_some_iff.1 h
    split at h
    · rename_i hl
      obtain ⟨q, rfl⟩ : ∃ q, e = c :: q := by
        cases e with
        | nil => cases hc
        | cons a q => simp at hc; exact ⟨q, by rw [hc]⟩
      have hlt : t.length < p.length := by
        apply Classical.byContradiction
        intro hn
        have heq : t.length = p.length := by omega
        have := List.append_inj hs heq.symm
        rw [this.2] at ha
        simp only [List.head?_cons, Option.some.injEq] at ha
        subst ha
        exact absurd hl (by decide)
      obtain ⟨⟨irv, io⟩, hi, h⟩ := Option.bind_eq_some_iff.1 h
      have hL : (p.length + Num.w64 - ((p ++ after).length - (c :: q).length + 1)) % Num.w64 ≤ p.length - t.length - 1 := by
        have e1 : (p ++ after).length - (c :: q).length = t.length := by
          rw [hs]; simp
        rw [e1]
        have e2 : p.length + Num.w64 - (t.length + 1) = (p.length - t.length - 1) + Num.w64 := by omega
        rw [e2, Nat.add_mod_right]
        exact Nat.mod_le _ _
      cases irv with
      | overflow => cases h; simp at hrv
      | invalid => cases h; simp at hrv
      | success =>
        cases io with
        | none => cases h
        | some io =>
          obtain ⟨x, e'⟩ := io
          obtain ⟨u, h1, h2, h3⟩ := toInt64_loose hi (by decide)
          simp only [List.drop_succ_cons, List.drop_zero] at h1
          refine ⟨c :: u, e', scale_end h hrv, by rw [h1]; rfl, Or.inr ⟨c, u, rfl, lower_e hl, h2⟩, ?_⟩
          simp only [List.length_append, List.length_cons]
          omega
    · exact done h
  · exact done h

/-- What `M_decimal_from_str` takes at a place where the reader calls it. -/
theorem fromStr_loose {p after : List UInt8} (ha : after.head? = some 0) (hp : ∀ c, p.head? = some c → c = 45 ∨ Digit c) (hne : p ≠ []) {d : Decimal.Dec} {rv : Decimal.Rv}
    {o : Option (List UInt8)} (h : Decimal.fromStr (p ++ after) p.length = some (rv, d, o)) (hrv : rv = .success ∨ rv = .truncation) :
    o = none ∨ ∃ t rest, o = some (rest ++ after) ∧ p = t ++ rest ∧ LooseNum t := by
  have hpl : p.length ≠ 0 := by simpa using hne
  have fin : ∀ {t e' : List UInt8}, p ++ after = t ++ e' → t.length ≤ p.length → LooseNum t → o = some e' →
      o = none ∨ ∃ t rest, o = some (rest ++ after) ∧ p = t ++ rest ∧ LooseNum t := by
    intro t e' hs hl ht ho
    obtain ⟨rest, h1, h2⟩ : ∃ rest, p = t ++ rest ∧ e' = rest ++ after := by
      rcases List.append_eq_append_iff.1 hs with ⟨a, h1, h2⟩ | ⟨a, h1, h2⟩
      · have : a = [] := by
          have := congrArg List.length h1
          simp only [List.length_append] at this
          exact List.eq_nil_of_length_eq_zero (by omega)
        subst this
        exact ⟨[], by simpa using h1.symm, by simpa using h2.symm⟩
      · exact ⟨a, h1, h2⟩
    exact Or.inr ⟨t, rest, by rw [ho, h2], h1, ht⟩
  obtain ⟨c, r, rfl⟩ : ∃ c r, p = c :: r := by
    cases p with
    | nil => exact absurd rfl hne
    | cons c r => exact ⟨c, r, rfl⟩
  have hc := hp c rfl
  have h46 : c ≠ 46 := by
    rintro rfl
    exact absurd hc (by decide)
  unfold Decimal.fromStr at h
  rw [if_neg hpl] at h
  simp only [List.cons_append, List.getElem?_cons_zero, Option.bind_some] at h
  rw [if_neg h46] at h
  obtain ⟨⟨irv, io⟩, hi, h⟩ := Option.bind_eq_some_iff.1 h
  cases irv with
  | overflow => cases h; simp at hrv
  | invalid => cases h; simp at hrv
  | success =>
    cases io with
    | none => cases h
    | some io =>
      obtain ⟨num, q⟩ := io
      obtain ⟨i, h1, h2, h3⟩ := toInt64_loose hi (by decide)
      have hih : ∀ x, i.head? = some x → x = 45 ∨ Digit x := by
        intro x hx
        cases i with
        | nil => cases hx
        | cons y i =>
          rw [List.cons_append] at h1
          injection h1 with h1 _
          simp only [List.head?_cons, Option.some.injEq] at hx
          rw [← hx, ← h1]
          exact hc
      simp only [] at h
      unfold Decimal.afterInt at h
      simp only [] at h
      obtain ⟨pt, hpt, h⟩ := Option.bind_eq_some_iff.1 h
      have hnr : (c :: (r ++ after)).length - q.length = i.length := by rw [h1]; simp
      rw [hnr] at hpt h
      cases pt with
      | false =>
        simp only [Bool.false_eq_true, if_false] at h
        obtain ⟨x, e', g1, g2, g3, g4⟩ := expPart_loose (p := c :: r) ha h1 h3 h hrv
        exact fin (t := i ++ x) (by rw [List.append_assoc, ← g2]; exact h1) g4 ⟨i, [], x, by simp, h2, hih, Or.inl rfl, g3⟩ g1
      | true =>
        simp only [if_true] at h
        have hq : ∃ q', q = 46 :: q' ∧ i.length < (c :: r).length := by
          split at hpt
          · rename_i hlt
            cases q with
            | nil => cases hpt
            | cons x q' =>
              simp at hpt
              exact ⟨q', by rw [hpt], hlt⟩
          · simp at hpt
        obtain ⟨q', rfl, hlt⟩ := hq
        obtain ⟨fr, hfr, h⟩ := Option.bind_eq_some_iff.1 h
        cases fr with
        | none => cases h; simp at hrv
        | some fr =>
          have hl := fracLoop_loose hfr
          obtain ⟨ad, temp, e, tr⟩ := fr
          simp only [List.drop_succ_cons, List.drop_zero] at h hl hfr
          split at h
          · cases h; simp at hrv
          · obtain ⟨n, _, h⟩ := Option.bind_eq_some_iff.1 h
            rcases hl with ⟨_, he⟩ | ⟨f, e', he, g1, g2, g3⟩
            · subst he
              simp only [Decimal.expPart] at h
              cases h
              exact Or.inl rfl
            · subst he
              have hs : (c :: r) ++ after = (i ++ 46 :: f) ++ e' := by
                have : c :: (r ++ after) = (i ++ 46 :: f) ++ e' := by rw [h1, g1]; simp
                exact this
              obtain ⟨x, e'', k1, k2, k3, k4⟩ := expPart_loose (p := c :: r) ha hs
                (by simp only [List.length_append, List.length_cons] at g3 hlt ⊢; omega) h hrv
              refine fin (t := (i ++ 46 :: f) ++ x) (by rw [List.append_assoc (i ++ 46 :: f), ← k2]; exact hs) k4 ?_ k1
              exact ⟨i, 46 :: f, x, by simp, h2, hih, Or.inr ⟨f, rfl, g2⟩, k3⟩

/-- A number is read, or nothing is consumed. -/
theorem readNumber_loose {fl : RFlags} {after p rest : List UInt8} {v : Json} (ha : after.head? = some 0) (hp : ∀ c, p.head? = some c → c = 45 ∨ Digit c) (hne : p ≠ [])
    (h : readNumber fl after p = some (.ok (v, rest))) : NumNode v ∧ (rest = p ∨ ∃ t, p = t ++ rest ∧ LooseNum t) := by
  unfold readNumber at h
  obtain ⟨⟨rv, d, o⟩, h1, h⟩ := Option.bind_eq_some_iff.1 h
  simp only [] at h
  split at h
  · rename_i hrv
    have hrv' : rv = .success ∨ rv = .truncation := hrv.imp id (fun h => h.1)
    simp only [Option.some.injEq, Except.ok.injEq, Prod.mk.injEq] at h
    obtain ⟨hv, hr⟩ := h
    refine ⟨by rw [← hv]; split <;> trivial, ?_⟩
    rcases fromStr_loose ha hp hne h1 hrv' with rfl | ⟨t, r, rfl, h2, h3⟩
    · exact Or.inl hr.symm
    · right
      refine ⟨t, ?_, h3⟩
      rw [← hr, h2]
      unfold consume
      simp only []
      have e : (t ++ r ++ after).length - (r ++ after).length = t.length := by simp only [List.length_append]; omega
      rw [e, if_pos (by simp)]
      simp
  · cases h

/-! ### Strings -/

theorem hex_iff {c : UInt8} (h : Chr.isHex c = true) : digitVal c < 16 := by
  have : ∀ n : Fin 256, Chr.isHex (UInt8.ofNat n.val) = true → digitVal (UInt8.ofNat n.val) < 16 := by decide +kernel
  have := this ⟨c.toNat, c.toNat_lt⟩
  simp only [UInt8.ofNat_toNat] at this
  exact this h

theorem isHexMax_spec : ∀ (n : Nat) (s : List UInt8), isHexMax n s = some true →
    ∃ ds, (∀ c ∈ ds, digitVal c < 16) ∧ (ds.length = n ∧ (∃ y, s = ds ++ y) ∨ ds.length < n ∧ ∃ y, s = ds ++ 0 :: y) := by
  intro n
  induction n with
  | zero => intro s _; exact ⟨[], by simp, Or.inl ⟨rfl, s, rfl⟩⟩
  | succ n ih =>
    intro s h
    cases s with
    | nil => cases h
    | cons c s =>
      rw [isHexMax] at h
      split at h
      · rename_i h0
        exact ⟨[], by simp, Or.inr ⟨by simp, s, by rw [h0]; rfl⟩⟩
      · split at h
        · rename_i hc
          obtain ⟨ds, h1, h2⟩ := ih s h
          refine ⟨c :: ds, ?_, ?_⟩
          · intro x hx
            rcases List.mem_cons.1 hx with rfl | hx
            · exact hex_iff hc
            · exact h1 x hx
          · rcases h2 with ⟨h2, y, h3⟩ | ⟨h2, y, h3⟩
            · exact Or.inl ⟨by simp [h2], y, by rw [h3]; rfl⟩
            · exact Or.inr ⟨by simp only [List.length_cons]; omega, y, by rw [h3]; rfl⟩
        · cases h

theorem value16_lt (ds : List UInt8) (h : ∀ c ∈ ds, digitVal c < 16) : value 16 ds < 16 ^ ds.length := by
  induction ds with
  | nil => decide
  | cons c ds ih =>
    have h1 := h c (by simp)
    have h2 := ih (fun x hx => h x (by simp [hx]))
    simp only [value, List.length_cons, Nat.pow_succ]
    have : digitVal c * 16 ^ ds.length ≤ 15 * 16 ^ ds.length := Nat.mul_le_mul_right _ (by omega)
    omega

theorem uniEscape_loose {r after u : List UInt8} (h : uniEscape (92 :: 117 :: r) (r ++ after) = some (some u)) :
    ∃ x q cp, r = x ++ q ∧ Hex4Cut x cp ∧ Allowed cp ∧ u = utf8 cp := by
  unfold uniEscape at h
  split at h
  · cases h
  · rename_i hl
    have hl : 4 ≤ r.length := by simp only [List.length_cons] at hl; omega
    obtain ⟨hex, h1, h⟩ := Option.bind_eq_some_iff.1 h
    cases hex with
    | false => cases h
    | true =>
      simp only [if_true] at h
      obtain ⟨⟨rv, o⟩, h2, h⟩ := Option.bind_eq_some_iff.1 h
      obtain ⟨ds, hd, hs⟩ := isHexMax_spec 4 _ h1
      have hlen : ds.length ≤ 4 := by rcases hs with hs | hs <;> omega
      have hv : value 16 ds < 16 ^ 4 := Nat.lt_of_lt_of_le (value16_lt ds hd) (Nat.pow_le_pow_right (by decide) hlen)
      have key : ds ≠ [] ∧ (rv = .success → ∃ e, o = some (value 16 ds, e)) := by
        rcases hs with ⟨hs, y, e⟩ | ⟨hs, y, e⟩
        · refine ⟨fun h0 => by rw [h0] at hs; simp at hs, ?_⟩
          rw [e, toUint32_hex4 ⟨hs, hd, rfl⟩] at h2
          cases h2
          exact fun _ => ⟨_, rfl⟩
        · have hnz : (0 : UInt8) ∉ ds := fun h0 => absurd (hd 0 h0) (by decide)
          have hc : Num.Call (r ++ after) 4 ds (0 :: y) := ⟨e, hnz, ⟨ds, y, e, hnz, (List.take_of_length_le hlen).symm⟩, by decide⟩
          have hp : Num.Parsed 16 ds false ds [] := by
            refine ⟨⟨[], [], by simp, by simp, Or.inr (Or.inr ⟨rfl, rfl, ?_⟩)⟩, hd, by simp⟩
            intro c hc
            rw [List.append_nil] at hc
            obtain ⟨_, _, h3, h4, h5⟩ := hex_facts c (hd c (List.mem_of_head? hc))
            exact ⟨h3, h4, h5⟩
          have hx : (ds ++ []).map Chr.toLower ≠ [48, 120] := by
            rw [List.append_nil]
            intro hx
            have : (120 : UInt8) ∈ ds.map Chr.toLower := by rw [hx]; simp
            obtain ⟨c, hc, hc'⟩ := List.mem_map.1 this
            have ht : ∀ n : Fin 256, digitVal (UInt8.ofNat n.val) < 16 → Chr.toLower (UInt8.ofNat n.val) ≠ 120 := by decide +kernel
            have ht := ht ⟨c.toNat, c.toNat_lt⟩
            simp only [UInt8.ofNat_toNat] at ht
            exact ht (hd c hc) hc'
          rw [Num.uint32_exact_partial hc (by decide) hp hx (by omega), if_pos (by omega)] at h2
          by_cases h0 : ds = []
          · rw [if_pos h0] at h2
            cases h2
            cases h
          · refine ⟨h0, fun _ => ?_⟩
            rw [if_neg h0] at h2
            cases h2
            exact ⟨_, rfl⟩
      cases rv with
      | overflow => cases h
      | invalid => cases h
      | success =>
        obtain ⟨e, rfl⟩ := key.2 rfl
        simp only [] at h
        split at h
        · rename_i u' hu
          cases h
          obtain ⟨g1, g2, _⟩ := (Utf8.encode_correct _ _ _).1 hu
          refine ⟨r.take 4, r.drop 4, value 16 ds, (List.take_append_drop 4 r).symm, ⟨ds, key.1, hd, by rw [List.length_take]; omega, ?_, rfl⟩, g1, g2⟩
          rcases hs with ⟨hs, y, e⟩ | ⟨hs, y, e⟩
          · left
            have := congrArg (List.take 4) e
            rw [List.take_append_of_le_length hl, ← hs, List.take_left'] at this
            · rw [← hs]; exact this
            · rfl
          · right
            have := congrArg (List.take 4) e
            rw [List.take_append_of_le_length hl, List.take_append, List.take_of_length_le hlen] at this
            obtain ⟨k, hk⟩ : ∃ k, 4 - ds.length = k + 1 := ⟨3 - ds.length, by omega⟩
            rw [hk, List.take_succ_cons] at this
            exact ⟨_, this⟩
        · cases h

theorem simpleEscape_mem {e b : UInt8} (h : simpleEscape e = some b) : (e, b) ∈ escapes := by
  have : ∀ n : Fin 256, ∀ b, simpleEscape (UInt8.ofNat n.val) = some b → (UInt8.ofNat n.val, b) ∈ escapes := by
    have : ∀ n : Fin 256, (simpleEscape (UInt8.ofNat n.val)).all (fun b => decide ((UInt8.ofNat n.val, b) ∈ escapes)) = true := by decide +kernel
    intro n b h
    have := this n
    rw [h] at this
    simpa using this
  have := this ⟨e.toNat, e.toNat_lt⟩
  simp only [UInt8.ofNat_toNat] at this
  exact this b h

theorem strLoop_loose {fl : RFlags} (hr : fl.replaceBad = false) (hd : fl.dontDecode = false) (after : List UInt8) : ∀ (fuel : Nat) (p : List UInt8) (cp : UInt8)
    (buf : List UInt8) {buf' rest : List UInt8}, strLoop fl after fuel p cp buf = some (.ok (buf', rest)) → ∃ t s, p = t ++ 34 :: rest ∧ LooseBody t s ∧ buf' = buf ++ s := by
  intro fuel
  induction fuel with
  | zero => intro p cp buf buf' rest h; rw [strLoop.eq_def] at h; cases h
  | succ fuel ih =>
    intro p cp buf buf' rest h
    rw [strLoop.eq_def] at h
    cases p with
    | nil => cases h
    | cons c r =>
      simp only [] at h
      split at h
      · rename_i hc
        cases h
        exact ⟨[], [], by rw [hc]; rfl, .nil, by simp⟩
      · rename_i h34
        split at h
        · cases h
        · split at h
          · rw [hr] at h; cases h
          · rename_i h32
            split at h
            · rename_i h92
              subst h92
              cases r with
              | nil => cases h
              | cons ce r =>
                simp only [] at h
                split at h
                · rename_i b hb
                  obtain ⟨t, s, h1, h2, h3⟩ := ih _ _ _ h
                  exact ⟨92 :: ce :: t, b :: s, by rw [h1]; rfl, .two (simpleEscape_mem hb) h2, by rw [h3]; simp⟩
                · split at h
                  · rename_i h117
                    subst h117
                    obtain ⟨u, hu, h⟩ := Option.bind_eq_some_iff.1 h
                    cases u with
                    | none => simp only [hr] at h; cases h
                    | some u =>
                      obtain ⟨x, q, cp', g1, g2, g3, g4⟩ := uniEscape_loose hu
                      have hx4 : x.length = 4 := by obtain ⟨_, _, _, hx, _⟩ := g2; exact hx
                      simp only [hd] at h
                      obtain ⟨t, s, h1, h2, h3⟩ := ih _ _ _ h
                      rw [g1, ← hx4, List.drop_left] at h1
                      refine ⟨92 :: 117 :: (x ++ t), u ++ s, by rw [g1, h1]; simp, by rw [g4]; exact .uni g2 g3 h2, by rw [h3]; simp⟩
                  · cases h
            · rename_i h92
              obtain ⟨t, s, h1, h2, h3⟩ := ih _ _ _ h
              exact ⟨c :: t, c :: s, by rw [h1]; rfl, .plain (UInt8.not_lt.1 h32) h34 h92 h2, by rw [h3]; simp⟩

theorem takeWhile_cut (b : List UInt8) : ∃ z, b = b.takeWhile (· ≠ 0) ++ z ∧ (0 : UInt8) ∉ b.takeWhile (· ≠ 0) ∧ (z = [] ∨ z.head? = some 0) := by
  induction b with
  | nil => exact ⟨[], by simp⟩
  | cons c b ih =>
    by_cases h : c = 0
    · refine ⟨c :: b, ?_⟩
      subst h
      simp
    · obtain ⟨z, h1, h2, h3⟩ := ih
      rw [List.takeWhile_cons_of_pos (by simpa using h)]
      refine ⟨z, by rw [List.cons_append, ← h1], ?_, h3⟩
      simp only [List.mem_cons, not_or]
      exact ⟨fun e => h e.symm, h2⟩

theorem readString_loose {fl : RFlags} (hr : fl.replaceBad = false) (hd : fl.dontDecode = false) {after p s rest : List UInt8}
    (h : readString fl after p = some (.ok (s, rest))) : ∃ t, p = t ++ 34 :: rest ∧ LooseStr t s := by
  unfold readString at h
  cases hs : strLoop fl after (p.length + 1) p 0 [] with
  | none => rw [hs] at h; cases h
  | some x =>
    rw [hs] at h
    cases x with
    | error e => cases h
    | ok x =>
      obtain ⟨buf, r⟩ := x
      simp only [Res.andThen, Option.some.injEq, Except.ok.injEq, Prod.mk.injEq] at h
      obtain ⟨rfl, rfl⟩ := h
      obtain ⟨t, s, h1, h2, h3⟩ := strLoop_loose hr hd after _ _ _ _ hs
      obtain ⟨z, z1, z2, z3⟩ := takeWhile_cut buf
      rw [List.nil_append] at h3
      refine ⟨t, h1, z, ?_, z2, z3⟩
      rw [← z1, h3]
      exact h2

/-! ### Members -/

theorem last_snoc {α : Type} (ms : List (List UInt8 × α)) (k k' : List UInt8) (v v' : α) :
    (∃ a b, ms ++ [(k, v)] = a ++ (k', v') :: b ∧ k' ∉ b.map (·.1)) ↔ (k' = k ∧ v' = v) ∨ k' ≠ k ∧ ∃ a b, ms = a ++ (k', v') :: b ∧ k' ∉ b.map (·.1) := by
  constructor
  · rintro ⟨a, b, h1, h2⟩
    rcases List.eq_nil_or_concat b with rfl | ⟨b', x, rfl⟩
    · have := List.append_inj' h1 rfl
      injection this.2 with h _
      injection h with ha hb
      exact Or.inl ⟨ha.symm, hb.symm⟩
    · right
      have h1 : ms ++ [(k, v)] = (a ++ (k', v') :: b') ++ [x] := by rw [h1]; simp
      have := List.append_inj' h1 rfl
      injection this.2 with hx _
      subst hx
      simp only [List.concat_eq_append, List.map_append, List.map_cons, List.map_nil, List.mem_append, List.mem_singleton, not_or] at h2
      exact ⟨h2.2, a, b', this.1, h2.1⟩
  · rintro (⟨rfl, rfl⟩ | ⟨hne, a, b, h1, h2⟩)
    · exact ⟨ms, [], rfl, by simp⟩
    · refine ⟨a, b ++ [(k, v)], by rw [h1]; simp, ?_⟩
      simp only [List.map_append, List.map_cons, List.map_nil, List.mem_append, List.mem_singleton, not_or]
      exact ⟨h2, hne⟩

theorem insert_build {ms l : List (List UInt8 × Json)} (h : loose.build ms l) (k : List UInt8) (v : Json) : loose.build (ms ++ [(k, v)]) (insert l k v) := by
  obtain ⟨hnd, hm⟩ := h
  unfold insert
  by_cases hk : k = []
  · rw [if_pos hk]
    refine ⟨hnd, ?_⟩
    intro k' v'
    rw [hm, last_snoc]
    constructor
    · rintro ⟨h1, h2⟩
      exact ⟨h1, Or.inr ⟨by rw [hk]; exact h1, h2⟩⟩
    · rintro ⟨h1, h2⟩
      rcases h2 with ⟨h2, _⟩ | ⟨_, h2⟩
      · exact absurd (h2.trans hk) h1
      · exact ⟨h1, h2⟩
  · rw [if_neg hk]
    by_cases ha : l.any (fun m => m.1 == k) = true
    · rw [if_pos ha]
      have hmap : (l.map fun m => if m.1 == k then (k, v) else m).map (·.1) = l.map (·.1) := by
        rw [List.map_map]
        apply List.map_congr_left
        intro m _
        simp only [Function.comp]
        split
        · rename_i h; have h : m.1 = k := by simpa using h
          exact h.symm
        · rfl
      refine ⟨by rw [hmap]; exact hnd, ?_⟩
      intro k' v'
      rw [last_snoc, List.mem_map]
      constructor
      · rintro ⟨m, h1, h2⟩
        split at h2
        · cases h2; exact ⟨hk, Or.inl ⟨rfl, rfl⟩⟩
        · rename_i hne
          subst h2
          obtain ⟨g1, g2⟩ := (hm _ _).1 h1
          exact ⟨g1, Or.inr ⟨by simpa using hne, g2⟩⟩
      · rintro ⟨h1, h2⟩
        rcases h2 with ⟨rfl, rfl⟩ | ⟨hne, h2⟩
        · obtain ⟨m, hm1, hm2⟩ := List.any_eq_true.1 ha
          exact ⟨m, hm1, by rw [if_pos hm2]⟩
        · exact ⟨(k', v'), (hm _ _).2 ⟨h1, h2⟩, by rw [if_neg (by simpa using hne)]⟩
    · rw [if_neg ha]
      have hnk : k ∉ l.map (·.1) := by
        intro h
        obtain ⟨m, h1, h2⟩ := List.mem_map.1 h
        exact ha (List.any_eq_true.2 ⟨m, h1, by simpa using h2⟩)
      refine ⟨?_, ?_⟩
      · rw [List.map_append, List.nodup_append]
        refine ⟨hnd, by simp, ?_⟩
        intro a ha' b hb
        simp only [List.map_cons, List.map_nil, List.mem_singleton] at hb
        subst hb
        exact fun e => hnk (e ▸ ha')
      · intro k' v'
        rw [last_snoc, List.mem_append, hm, List.mem_singleton]
        constructor
        · rintro (⟨h1, h2⟩ | h)
          · refine ⟨h1, Or.inr ⟨?_, h2⟩⟩
            rintro rfl
            exact hnk (List.mem_map.2 ⟨_, (hm _ _).2 ⟨h1, h2⟩, rfl⟩)
          · cases h; exact ⟨hk, Or.inl ⟨rfl, rfl⟩⟩
        · rintro ⟨h1, h2⟩
          rcases h2 with ⟨rfl, rfl⟩ | ⟨_, h2⟩
          · exact Or.inr rfl
          · exact Or.inl ⟨h1, h2⟩

theorem foldl_build (ms : List (List UInt8 × Json)) : ∀ {ms0 acc}, loose.build ms0 acc → loose.build (ms0 ++ ms) (ms.foldl (fun a m => insert a m.1 m.2) acc) := by
  induction ms with
  | nil => intro ms0 acc h; simpa using h
  | cons m ms ih =>
    intro ms0 acc h
    have := ih (insert_build h m.1 m.2)
    simpa using this

theorem build_nil : loose.build [] [] := ⟨by simp, by intro k v; simp⟩

/-! ### Values -/

theorem andThen_ok {α β : Type} {x : Res α} {f : α → Res β} {b : β} (h : x.andThen f = some (.ok b)) : ∃ a, x = some (.ok a) ∧ f a = some (.ok b) := by
  match x with
  | none => cases h
  | some (.error e) => cases h
  | some (.ok a) => exact ⟨a, rfl, h⟩

/-- The reader makes no progress: a number is read but not consumed. -/
def Stuck (fl : RFlags) (after s : List UInt8) : Prop := (∃ c r, s = c :: r ∧ (c = 45 ∨ Chr.isDigit c = true)) ∧ ∃ v, readNumber fl after s = some (.ok (v, s))

theorem number_head {c : UInt8} (h : c = 45 ∨ Chr.isDigit c = true) : Chr.isSpace c = false ∧ c ≠ 123 ∧ c ≠ 91 ∧ c ≠ 34 ∧ c ≠ 116 ∧ c ≠ 102 ∧ c ≠ 110 ∧ c ≠ 44 ∧ c ≠ 93 ∧ c ≠ 125 ∧ (c = 45 ∨ Digit c) := by
  have : ∀ n : Fin 256, UInt8.ofNat n.val = 45 ∨ Chr.isDigit (UInt8.ofNat n.val) = true → Chr.isSpace (UInt8.ofNat n.val) = false ∧ UInt8.ofNat n.val ≠ 123 ∧ UInt8.ofNat n.val ≠ 91 ∧
    UInt8.ofNat n.val ≠ 34 ∧ UInt8.ofNat n.val ≠ 116 ∧ UInt8.ofNat n.val ≠ 102 ∧ UInt8.ofNat n.val ≠ 110 ∧ UInt8.ofNat n.val ≠ 44 ∧ UInt8.ofNat n.val ≠ 93 ∧ UInt8.ofNat n.val ≠ 125 ∧
    (UInt8.ofNat n.val = 45 ∨ Digit (UInt8.ofNat n.val)) := by decide +kernel
  have := this ⟨c.toNat, c.toNat_lt⟩
  simp only [UInt8.ofNat_toNat] at this
  exact this h

theorem stuck_eat {fl : RFlags} (hc : fl.noComments = true) {after s : List UInt8} (h : Stuck fl after s) : eatIgnored fl s = some (.ok s) := by
  obtain ⟨⟨c, r, rfl, h⟩, _⟩ := h
  unfold eatIgnored
  rw [if_pos hc]
  unfold eatWs
  rw [List.dropWhile_cons_of_neg (by rw [(number_head h).1]; decide)]

theorem stuck_value {fl : RFlags} (hc : fl.noComments = true) {after s : List UInt8} (h : Stuck fl after s) (f : Nat) {v : Json} {rest : List UInt8}
    (hv : readValue fl after (f + 1) s = some (.ok (v, rest))) : rest = s := by
  rw [readValue, stuck_eat hc h] at hv
  obtain ⟨⟨c, r, rfl, h⟩, ⟨v', h'⟩⟩ := h
  obtain ⟨_, h1, h2, h3, h4, h5, h6, _⟩ := number_head h
  simp only [Res.andThen, h1, h2, h3, h4, h5, h6, if_false, if_pos h] at hv
  rw [h'] at hv
  cases hv
  rfl

theorem stuck_arr {fl : RFlags} (hc : fl.noComments = true) {after s : List UInt8} (h : Stuck fl after s) : ∀ (f len : Nat) (acc : List Json) {x},
    readArr fl after f len s acc ≠ some (.ok x) := by
  obtain ⟨c, r, hs, h0⟩ := h.1
  obtain ⟨_, _, _, _, _, _, _, h44, h93, _⟩ := number_head h0
  have same : ∀ (f : Nat) (acc : List Json) {x}, readArr fl after f s.length s acc ≠ some (.ok x) := by
    intro f acc x hx
    cases f with
    | zero => rw [readArr] at hx; cases hx
    | succ f =>
      rw [readArr, if_neg (by rw [hs]; simp), if_neg (by rw [hs]; simpa using h93), if_pos rfl] at hx
      cases hx
  intro f len acc x hx
  cases f with
  | zero => rw [readArr] at hx; cases hx
  | succ f =>
    rw [readArr, if_neg (by rw [hs]; simp), if_neg (by rw [hs]; simpa using h93)] at hx
    split at hx
    · cases hx
    · obtain ⟨q, h1, hx⟩ := andThen_ok hx
      rw [stuck_eat hc h] at h1
      cases h1
      rw [hs] at hx
      simp only [] at hx
      rw [if_neg h93] at hx
      obtain ⟨⟨v, q⟩, h2, hx⟩ := andThen_ok hx
      rw [← hs] at h2
      cases f with
      | zero => rw [readValue] at h2; cases h2
      | succ f =>
        have := stuck_value hc h f h2
        simp only [this] at hx
        obtain ⟨q, h3, hx⟩ := andThen_ok hx
        rw [stuck_eat hc h] at h3
        cases h3
        rw [hs] at hx
        simp only [] at hx
        rw [if_neg h44, ← hs] at hx
        exact same _ _ hx

theorem stuck_obj {fl : RFlags} (hc : fl.noComments = true) {after s : List UInt8} (h : Stuck fl after s) (f : Nat) (acc : List (List UInt8 × Json)) {x} :
    readObj fl after f s acc ≠ some (.ok x) := by
  obtain ⟨c, r, hs, h0⟩ := h.1
  obtain ⟨_, _, _, h34, _, _, _, _, _, h125, _⟩ := number_head h0
  intro hx
  cases f with
  | zero => rw [readObj] at hx; cases hx
  | succ f =>
    rw [readObj, if_neg (by rw [hs]; simp), if_neg (by rw [hs]; simpa using h125), stuck_eat hc h, hs] at hx
    simp only [Res.andThen, h125, if_false] at hx
    rw [if_pos h34] at hx
    cases hx

section
variable (fl : RFlags) (after : List UInt8)

def SoundVal (fuel : Nat) : Prop := ∀ p v rest, readValue fl after fuel p = some (.ok (v, rest)) →
  ∃ w p', p = w ++ p' ∧ (∀ c ∈ w, Space c) ∧ ((∃ t, p' = t ++ rest ∧ Val loose t v) ∨ rest = p' ∧ NumNode v ∧ Stuck fl after p')

def SoundObj (fuel : Nat) : Prop := ∀ p acc v rest, readObj fl after fuel p acc = some (.ok (v, rest)) →
  ∃ ms, v = .obj (ms.foldl (fun a m => insert a m.1 m.2) acc) ∧
    ((ms = [] ∧ ∃ w, p = w ++ 125 :: rest ∧ ∀ c ∈ w, Space c) ∨ ∃ t, p = t ++ 125 :: rest ∧ Members loose t ms)

def SoundArr (fuel : Nat) : Prop := ∀ len p acc v rest, readArr fl after fuel len p acc = some (.ok (v, rest)) →
  ∃ l, v = .arr (acc ++ l) ∧ ((l = [] ∧ ∃ w, p = w ++ 93 :: rest ∧ ∀ c ∈ w, Space c) ∨ ∃ t, p = t ++ 93 :: rest ∧ Elems loose t l)

end

theorem spaces_append {a b : List UInt8} (ha : ∀ c ∈ a, Space c) (hb : ∀ c ∈ b, Space c) : ∀ c ∈ a ++ b, Space c := by
  intro c hc
  rcases List.mem_append.1 hc with h | h
  · exact ha c h
  · exact hb c h

/-- White space in front of elements belongs to them. -/
theorem elems_front {w t : List UInt8} {l : List Json} (hw : ∀ c ∈ w, Space c) (h : Elems loose t l) : Elems loose (w ++ t) l := by
  cases h with
  | one ha h hb => rw [← List.append_assoc]; exact .one (spaces_append hw ha) h hb
  | cons ha h hb hs hu => rw [← List.append_assoc]; exact .cons (spaces_append hw ha) h hb hs hu

theorem members_front {w t : List UInt8} {l : List (List UInt8 × Json)} (hw : ∀ c ∈ w, Space c) (h : Members loose t l) : Members loose (w ++ t) l := by
  cases h with
  | one ha hk hb hc h hd => rw [← List.append_assoc]; exact .one (spaces_append hw ha) hk hb hc h hd
  | cons ha hk hb hc h hd hs hu => rw [← List.append_assoc]; exact .cons (spaces_append hw ha) hk hb hc h hd hs hu

theorem not_space_head {p : List UInt8} {w rest : List UInt8} {x : UInt8} (hp : ∀ c, p.head? = some c → ¬ Space c) (h : p = w ++ x :: rest) (hw : ∀ c ∈ w, Space c) :
    p[0]? = some x := by
  cases w with
  | nil => rw [h]; rfl
  | cons c w =>
    exfalso
    rw [h] at hp
    exact hp c rfl (hw c (by simp))

theorem eat_head {fl : RFlags} (hc : fl.noComments = true) {p q : List UInt8} (h : eatIgnored fl p = some (.ok q)) : ∀ c, q.head? = some c → ¬ Space c := by
  obtain ⟨_, _, _, rfl⟩ := eatIgnored_loose hc h
  exact (eatWs_spec p).choose_spec.2.2

theorem sound_arr {fl : RFlags} (hc : fl.noComments = true) {after : List UInt8} {f : Nat} (hv : SoundVal fl after f) (ha : SoundArr fl after f) : SoundArr fl after (f + 1) := by
  intro len p acc v rest h
  rw [readArr] at h
  split at h
  · cases h
  · split at h
    · rename_i h93
      cases h
      cases p with
      | nil => cases h93
      | cons x p =>
        simp only [List.getElem?_cons_zero, Option.some.injEq] at h93
        subst h93
        exact ⟨[], by simp, Or.inl ⟨rfl, [], rfl, by simp⟩⟩
    · split at h
      · cases h
      · replace h := andThen_ok h
        obtain ⟨q, h1, h⟩ := h
        obtain ⟨w, rfl, hw, _⟩ := eatIgnored_loose hc h1
        cases q with
        | nil => cases h
        | cons c r =>
          simp only [] at h
          split at h
          · rename_i h93
            subst h93
            cases h
            exact ⟨[], by simp, Or.inl ⟨rfl, w, rfl, hw⟩⟩
          · replace h := andThen_ok h
            obtain ⟨⟨x, q⟩, h2, h⟩ := h
            obtain ⟨w2, p', e2, hw2, hx⟩ := hv _ _ _ h2
            replace h := andThen_ok h
            obtain ⟨q2, h3, h⟩ := h
            obtain ⟨w3, rfl, hw3, _⟩ := eatIgnored_loose hc h3
            rcases hx with ⟨t, rfl, ht⟩ | ⟨e, _, hst⟩
            · cases q2 with
              | nil => cases h
              | cons c2 r2 =>
                simp only [] at h
                rw [e2]
                split at h
                · rename_i h44
                  subst h44
                  replace h := andThen_ok h
                  obtain ⟨q4, h4, h⟩ := h
                  obtain ⟨w4, rfl, hw4, _⟩ := eatIgnored_loose hc h4
                  split at h
                  · cases h
                  · rename_i hn
                    obtain ⟨l, rfl, hl⟩ := ha _ _ _ _ _ h
                    refine ⟨x :: l, by simp, Or.inr ?_⟩
                    rcases hl with ⟨_, w5, e5, hw5⟩ | ⟨u, e5, hu⟩
                    · exact absurd (Or.inr (not_space_head (eat_head hc h4) e5 hw5)) hn
                    · rw [e5]
                      refine ⟨(w ++ w2) ++ (t ++ (w3 ++ ([44] ++ (w4 ++ u)))), by simp, ?_⟩
                      exact .cons (spaces_append hw hw2) ht hw3 (Or.inl rfl) (elems_front hw4 hu)
                · obtain ⟨l, rfl, hl⟩ := ha _ _ _ _ _ h
                  refine ⟨x :: l, by simp, Or.inr ?_⟩
                  rcases hl with ⟨rfl, w5, e5, hw5⟩ | ⟨u, e5, hu⟩
                  · rw [e5]
                    exact ⟨(w ++ w2) ++ (t ++ (w3 ++ w5)), by simp, .one (spaces_append hw hw2) ht (spaces_append hw3 hw5)⟩
                  · rw [e5]
                    exact ⟨(w ++ w2) ++ (t ++ (w3 ++ ([] ++ u))), by simp, .cons (spaces_append hw hw2) ht hw3 (Or.inr rfl) hu⟩
            · exfalso
              rw [← e] at hst
              rw [stuck_eat hc hst] at h3
              have h3 : w3 ++ q2 = q2 := by injection h3 with h3; injection h3
              rw [h3] at hst
              obtain ⟨c2, r2, e2, hc2⟩ := hst.1
              subst e2
              simp only [] at h
              rw [if_neg (number_head hc2).2.2.2.2.2.2.2.1] at h
              exact stuck_arr hc hst _ _ _ h

theorem sound_obj {fl : RFlags} (hc : fl.noComments = true) (hr : fl.replaceBad = false) (hd : fl.dontDecode = false) {after : List UInt8} {f : Nat}
    (hv : SoundVal fl after f) (ho : SoundObj fl after f) : SoundObj fl after (f + 1) := by
  intro p acc v rest h
  rw [readObj] at h
  split at h
  · cases h
  · split at h
    · rename_i h125
      cases h
      cases p with
      | nil => cases h125
      | cons x p =>
        simp only [List.getElem?_cons_zero, Option.some.injEq] at h125
        subst h125
        exact ⟨[], by simp, Or.inl ⟨rfl, [], rfl, by simp⟩⟩
    · replace h := andThen_ok h
      obtain ⟨q, h1, h⟩ := h
      obtain ⟨w, rfl, hw, _⟩ := eatIgnored_loose hc h1
      cases q with
      | nil => cases h
      | cons c r =>
        simp only [] at h
        split at h
        · rename_i h125
          subst h125
          cases h
          exact ⟨[], by simp, Or.inl ⟨rfl, w, rfl, hw⟩⟩
        · split at h
          · cases h
          · rename_i h34
            have h34 : c = 34 := Classical.byContradiction h34
            subst h34
            replace h := andThen_ok h
            obtain ⟨⟨key, p1⟩, hk, h⟩ := h
            obtain ⟨k, rfl, hks⟩ := readString_loose hr hd hk
            simp only [] at h
            split at h
            · cases h
            · replace h := andThen_ok h
              obtain ⟨q1, h2, h⟩ := h
              obtain ⟨w1, rfl, hw1, _⟩ := eatIgnored_loose hc h2
              cases q1 with
              | nil => cases h
              | cons c1 r1 =>
                simp only [] at h
                split at h
                · cases h
                · rename_i h58
                  have h58 : c1 = 58 := Classical.byContradiction h58
                  subst h58
                  replace h := andThen_ok h
                  obtain ⟨⟨x, q⟩, h2, h⟩ := h
                  obtain ⟨w2, p', rfl, hw2, hx⟩ := hv _ _ _ h2
                  replace h := andThen_ok h
                  obtain ⟨q2, h3, h⟩ := h
                  obtain ⟨w3, rfl, hw3, _⟩ := eatIgnored_loose hc h3
                  rcases hx with ⟨t, rfl, ht⟩ | ⟨e, _, hst⟩
                  · cases q2 with
                    | nil => cases h
                    | cons c2 r2 =>
                      simp only [] at h
                      split at h
                      · rename_i h44
                        subst h44
                        replace h := andThen_ok h
                        obtain ⟨q4, h4, h⟩ := h
                        obtain ⟨w4, rfl, hw4, _⟩ := eatIgnored_loose hc h4
                        split at h
                        · cases h
                        · rename_i hn
                          obtain ⟨ms, rfl, hl⟩ := ho _ _ _ _ h
                          refine ⟨(key, x) :: ms, by simp, Or.inr ?_⟩
                          rcases hl with ⟨_, w5, e5, hw5⟩ | ⟨u, e5, hu⟩
                          · exact absurd (Or.inr (not_space_head (eat_head hc h4) e5 hw5)) hn
                          · rw [e5]
                            refine ⟨w ++ 34 :: (k ++ 34 :: (w1 ++ 58 :: (w2 ++ (t ++ (w3 ++ ([44] ++ (w4 ++ u))))))), by simp, ?_⟩
                            exact .cons hw hks hw1 hw2 ht hw3 (Or.inl rfl) (members_front hw4 hu)
                      · obtain ⟨ms, rfl, hl⟩ := ho _ _ _ _ h
                        refine ⟨(key, x) :: ms, by simp, Or.inr ?_⟩
                        rcases hl with ⟨rfl, w5, e5, hw5⟩ | ⟨u, e5, hu⟩
                        · rw [e5]
                          refine ⟨w ++ 34 :: (k ++ 34 :: (w1 ++ 58 :: (w2 ++ (t ++ (w3 ++ w5))))), by simp, ?_⟩
                          exact .one hw hks hw1 hw2 ht (spaces_append hw3 hw5)
                        · rw [e5]
                          refine ⟨w ++ 34 :: (k ++ 34 :: (w1 ++ 58 :: (w2 ++ (t ++ (w3 ++ ([] ++ u)))))), by simp, ?_⟩
                          exact .cons hw hks hw1 hw2 ht hw3 (Or.inr rfl) hu
                  · exfalso
                    rw [← e] at hst
                    rw [stuck_eat hc hst] at h3
                    have h3 : w3 ++ q2 = q2 := by injection h3 with h3; injection h3
                    rw [h3] at hst
                    obtain ⟨c2, r2, e2, hc2⟩ := hst.1
                    subst e2
                    simp only [] at h
                    rw [if_neg (number_head hc2).2.2.2.2.2.2.2.1] at h
                    exact stuck_obj hc hst _ _ h

theorem take_split {n : Nat} {l t : List UInt8} (h : l.take n = t) : l = t ++ l.drop n := by rw [← h, List.take_append_drop]

theorem sound_val {fl : RFlags} (hc : fl.noComments = true) (hr : fl.replaceBad = false) (hd : fl.dontDecode = false) {after : List UInt8} (h0 : after.head? = some 0) {f : Nat}
    (ho : SoundObj fl after f) (ha : SoundArr fl after f) : SoundVal fl after (f + 1) := by
  intro p v rest h
  rw [readValue] at h
  replace h := andThen_ok h
  obtain ⟨q, h1, h⟩ := h
  obtain ⟨w, rfl, hw, _⟩ := eatIgnored_loose hc h1
  refine ⟨w, q, rfl, hw, ?_⟩
  cases q with
  | nil => cases h
  | cons c r =>
    simp only [] at h
    by_cases c1 : c = 123
    · subst c1
      simp only [if_true] at h
      obtain ⟨ms, rfl, hl⟩ := ho _ _ _ _ h
      left
      rcases hl with ⟨rfl, w', rfl, hw'⟩ | ⟨t, rfl, ht⟩
      · exact ⟨123 :: (w' ++ [125]), by simp, .obj0 hw'⟩
      · refine ⟨123 :: (t ++ [125]), by simp, .obj ht ?_⟩
        simpa using foldl_build ms build_nil
    · rw [if_neg c1] at h
      by_cases c2 : c = 91
      · subst c2
        simp only [if_true] at h
        replace h := andThen_ok h
        obtain ⟨q, h2, h⟩ := h
        obtain ⟨w2, rfl, hw2, _⟩ := eatIgnored_loose hc h2
        obtain ⟨l, rfl, hl⟩ := ha _ _ _ _ _ h
        left
        rcases hl with ⟨rfl, w', rfl, hw'⟩ | ⟨t, rfl, ht⟩
        · exact ⟨91 :: ((w2 ++ w') ++ [93]), by simp, .arr0 (spaces_append hw2 hw')⟩
        · exact ⟨91 :: ((w2 ++ t) ++ [93]), by simp, .arr (elems_front hw2 ht)⟩
      · rw [if_neg c2] at h
        by_cases c3 : c = 34
        · subst c3
          simp only [if_true] at h
          replace h := andThen_ok h
          obtain ⟨⟨s, r'⟩, h2, h⟩ := h
          obtain ⟨t, rfl, ht⟩ := readString_loose hr hd h2
          cases h
          exact Or.inl ⟨34 :: (t ++ [34]), by simp, .str ht⟩
        · rw [if_neg c3] at h
          by_cases c4 : c = 116
          · rw [if_pos c4] at h
            split at h
            · rename_i ht
              cases h
              exact Or.inl ⟨_, take_split ht, .tru⟩
            · cases h
          · rw [if_neg c4] at h
            by_cases c5 : c = 102
            · rw [if_pos c5] at h
              split at h
              · rename_i ht
                cases h
                exact Or.inl ⟨_, take_split ht, .fls⟩
              · cases h
            · rw [if_neg c5] at h
              by_cases c6 : c = 110
              · rw [if_pos c6] at h
                split at h
                · rename_i ht
                  cases h
                  exact Or.inl ⟨_, take_split ht, .null⟩
                · cases h
              · rw [if_neg c6] at h
                by_cases c7 : c = 45 ∨ Chr.isDigit c = true
                · rw [if_pos c7] at h
                  have hp : ∀ x, (c :: r).head? = some x → x = 45 ∨ Digit x := by
                    intro x hx
                    simp only [List.head?_cons, Option.some.injEq] at hx
                    subst hx
                    exact (number_head c7).2.2.2.2.2.2.2.2.2.2
                  obtain ⟨hn, hx⟩ := readNumber_loose h0 hp (by simp) h
                  rcases hx with e | ⟨t, e, ht⟩
                  · right
                    refine ⟨e, hn, ⟨c, r, rfl, c7⟩, v, ?_⟩
                    rw [h, e]
                  · exact Or.inl ⟨t, e, .num ⟨ht, hn⟩⟩
                · rw [if_neg c7] at h
                  split at h <;> cases h

theorem sound_all {fl : RFlags} (hc : fl.noComments = true) (hr : fl.replaceBad = false) (hd : fl.dontDecode = false) {after : List UInt8} (h0 : after.head? = some 0) (f : Nat) :
    SoundVal fl after f ∧ SoundObj fl after f ∧ SoundArr fl after f := by
  induction f with
  | zero =>
    refine ⟨?_, ?_, ?_⟩
    · intro p v rest h; rw [readValue] at h; cases h
    · intro p acc v rest h; rw [readObj] at h; cases h
    · intro len p acc v rest h; rw [readArr] at h; cases h
  | succ f ih => exact ⟨sound_val hc hr hd h0 ih.2.1 ih.2.2, sound_obj hc hr hd ih.1 ih.2.1, sound_arr hc ih.1 ih.2.2⟩

end Verif.Json
