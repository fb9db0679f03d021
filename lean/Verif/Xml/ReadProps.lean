import Verif.Xml.EntProps
import Verif.Xml.Spec
import Verif.Mem.Props
/-! How the pieces of an XML text are read: lemmas for C73. -/
namespace Verif.Xml
open Verif.Str (Alike eq eqMaxInt eqMax_iff NoOuter trim)
open Verif.Chr (isSpace toLower)

theorem space_iff (c : UInt8) : isSpace c = true ↔ Space c := by
  have : ∀ k : Fin 256, isSpace (UInt8.ofNat k) = true ↔ (UInt8.ofNat k = 32 ∨ (9 ≤ UInt8.ofNat k ∧ UInt8.ofNat k ≤ 13)) := by decide +kernel
  have h := this ⟨c.toNat, c.toNat_lt⟩
  simp only [UInt8.ofNat_toNat] at h
  exact h

theorem Trimmed.noOuter {s : List UInt8} (h : Trimmed s) : NoOuter s := by
  refine ⟨fun c t e => ?_, fun c t e => ?_⟩
  · have := h.1 c t e; rw [← space_iff] at this; simpa using this
  · have := h.2 c t e; rw [← space_iff] at this; simpa using this

instance (c : UInt8) : Decidable (NameByte c) := by unfold NameByte; infer_instance

/-- The bytes of a name are none of those with a meaning of their own. -/
theorem name_ne {c : UInt8} (h : NameByte c) :
    isSpace c = false ∧ c ≠ 39 ∧ c ≠ 34 ∧ c ≠ 60 ∧ c ≠ 62 ∧ c ≠ 47 ∧ c ≠ 63 ∧ c ≠ 33 ∧ c ≠ 61 ∧ c ≠ 0 ∧ c ≠ 32 := by
  have : ∀ k : Fin 256, NameByte (UInt8.ofNat k) → isSpace (UInt8.ofNat k) = false ∧ UInt8.ofNat k ≠ 39 ∧ UInt8.ofNat k ≠ 34 ∧ UInt8.ofNat k ≠ 60 ∧
      UInt8.ofNat k ≠ 62 ∧ UInt8.ofNat k ≠ 47 ∧ UInt8.ofNat k ≠ 63 ∧ UInt8.ofNat k ≠ 33 ∧ UInt8.ofNat k ≠ 61 ∧ UInt8.ofNat k ≠ 0 ∧ UInt8.ofNat k ≠ 32 := by
    decide +kernel
  have h' := this ⟨c.toNat, c.toNat_lt⟩
  simp only [UInt8.ofNat_toNat] at h'
  exact h' h

theorem IsName.noNul {n : List UInt8} (h : IsName n) : (0 : UInt8) ∉ n := fun e => (name_ne (h.2.1 0 e)).2.2.2.2.2.2.2.2.2.1 rfl

/-! ### Searching outside quotes -/

/-- No match outside quotes in `s`. -/
def Skips (ch : UInt8) (s : List UInt8) : Prop := ∀ x, findUnquoted ch (s ++ x) 0 = (findUnquoted ch x 0).map (· + s.length)

theorem Skips.nil (ch : UInt8) : Skips ch [] := by intro x; simp

theorem Skips.append {ch : UInt8} {a b : List UInt8} (ha : Skips ch a) (hb : Skips ch b) : Skips ch (a ++ b) := by
  intro x
  rw [List.append_assoc, ha, hb]
  cases findUnquoted ch x 0 with
  | none => rfl
  | some i => simp; omega

theorem skips_one {ch c : UInt8} (h1 : c ≠ 39) (h2 : c ≠ 34) (h3 : c ≠ ch) : Skips ch [c] := by
  intro x
  simp [findUnquoted, h1, h2, h3]

theorem skips_name {ch : UInt8} {n : List UInt8} (h : ∀ c ∈ n, c ≠ 39 ∧ c ≠ 34 ∧ c ≠ ch) : Skips ch n := by
  induction n with
  | nil => exact Skips.nil ch
  | cons c n ih =>
    have hc := h c (by simp)
    exact Skips.append (a := [c]) (skips_one hc.1 hc.2.1 hc.2.2) (ih fun d hd => h d (by simp [hd]))

theorem skips_quoted (ch : UInt8) {v : List UInt8} (h : (34 : UInt8) ∉ v) : Skips ch ([34] ++ v ++ [34]) := by
  intro x
  have inner : ∀ (v : List UInt8), (34 : UInt8) ∉ v → findUnquoted ch (v ++ 34 :: x) 34 = (findUnquoted ch x 0).map (· + (v.length + 1)) := by
    intro v
    induction v with
    | nil => intro _; simp [findUnquoted]
    | cons c v ih =>
      intro hv
      simp only [List.mem_cons, not_or] at hv
      have hc : c ≠ 34 := fun e => hv.1 e.symm
      simp only [List.cons_append, findUnquoted]
      by_cases h39 : c = 39
      · subst h39
        simp [ih hv.2]
        cases findUnquoted ch x 0 <;> simp <;> omega
      · simp [h39, hc, ih hv.2]
        cases findUnquoted ch x 0 <;> simp <;> omega
  simp only [List.append_assoc, List.cons_append, List.nil_append, findUnquoted]
  simp [inner v h]
  cases findUnquoted ch x 0 <;> simp <;> omega

theorem found {ch : UInt8} {s : List UInt8} (h : Skips ch s) (h1 : ch ≠ 39) (h2 : ch ≠ 34) (x : List UInt8) : findUnquoted ch (s ++ ch :: x) 0 = some s.length := by
  rw [h]
  simp [findUnquoted, h1, h2]

theorem not_found {ch : UInt8} {s : List UInt8} (h : Skips ch s) : findUnquoted ch s 0 = none := by
  have := h []
  simpa [findUnquoted] using this

/-! ### Attributes -/

/-- An attribute as it is written, without the space in front. -/
def kv (a : List UInt8 × List UInt8) : List UInt8 := a.1 ++ ([61, 34] ++ attrEncode a.2 ++ [34])

/-- Attributes as they are written. -/
def kvs (as : Attrs) : List UInt8 := as.flatMap fun a => 32 :: kv a

theorem attrEncode_quote (v : List UInt8) : (34 : UInt8) ∉ attrEncode v := fun h => ((attrEncode_correct v).2 34 h).2 rfl

theorem skips_kv {ch : UInt8} {a : List UInt8 × List UInt8} (hn : IsName a.1) (hch : ch ≠ 61) (hc : ∀ c ∈ a.1, c ≠ ch) : Skips ch (kv a) := by
  have h1 : Skips ch a.1 := skips_name fun c hc' => ⟨(name_ne (hn.2.1 c hc')).2.1, (name_ne (hn.2.1 c hc')).2.2.1, hc c hc'⟩
  have h2 : Skips ch [61] := skips_one (by decide) (by decide) (Ne.symm hch)
  have h3 := Skips.append h1 (Skips.append h2 (skips_quoted ch (attrEncode_quote a.2)))
  simpa [kv] using h3

theorem skips_kvs {ch : UInt8} (hch : ch ≠ 61) (h32 : ch ≠ 32) (hn : ∀ c, NameByte c → c ≠ ch) {as : Attrs} (h : ∀ a ∈ as, IsName a.1) : Skips ch (kvs as) := by
  induction as with
  | nil => exact Skips.nil ch
  | cons a as ih =>
    have ha := h a (by simp)
    have := Skips.append (Skips.append (a := [32]) (skips_one (by decide) (by decide) (Ne.symm h32)) (skips_kv ha hch fun c hc => hn c (ha.2.1 c hc)))
      (ih fun b hb => h b (by simp [hb]))
    simpa [kvs] using this

/-! ### Stripping white space between attributes -/

theorem stripLoop_name (n x : List UInt8) (hn : ∀ c ∈ n, NameByte c) (h0 : n ≠ []) (req : Int) :
    stripLoop (n ++ x) 0 req = (if req = 1 then [32] else []) ++ n ++ stripLoop x 0 0 := by
  induction n generalizing req with
  | nil => exact absurd rfl h0
  | cons c n ih =>
    have hc := name_ne (hn c (by simp))
    simp only [List.cons_append, stripLoop]
    simp only [ne_eq, not_true, if_false, hc.2.1, hc.2.2.1, hc.1, hc.2.2.2.2.2.2.2.2.1, or_self, Bool.false_eq_true]
    cases n with
    | nil => simp
    | cons d n =>
      rw [ih (fun c hc => hn c (by simp [hc])) (by simp)]
      simp

theorem stripLoop_quoted (v x : List UInt8) (req : Int) (h : (34 : UInt8) ∉ v) : stripLoop (v ++ 34 :: x) 34 req = v ++ 34 :: stripLoop x 0 req := by
  induction v with
  | nil => simp [stripLoop]
  | cons c v ih =>
    simp only [List.mem_cons, not_or] at h
    have hc : c ≠ 34 := fun e => h.1 e.symm
    simp [stripLoop, hc, ih h.2]

theorem stripLoop_kv {a : List UInt8 × List UInt8} (hn : IsName a.1) (x : List UInt8) (req : Int) :
    stripLoop (kv a ++ x) 0 req = (if req = 1 then [32] else []) ++ kv a ++ stripLoop x 0 0 := by
  simp only [kv, List.append_assoc]
  rw [stripLoop_name _ _ hn.2.1 hn.1]
  have h : stripLoop ([61, 34] ++ (attrEncode a.2 ++ ([34] ++ x))) 0 0 = [61, 34] ++ (attrEncode a.2 ++ ([34] ++ stripLoop x 0 0)) := by
    simp only [List.cons_append, List.nil_append, stripLoop]
    have := stripLoop_quoted (attrEncode a.2) x 0 (attrEncode_quote a.2)
    simp [this, isSpace]
  rw [h]
  simp

theorem stripLoop_kvs {as : Attrs} (h : ∀ a ∈ as, IsName a.1) : stripLoop (kvs as) 0 0 = kvs as := by
  induction as with
  | nil => rfl
  | cons a as ih =>
    have e : kvs (a :: as) = 32 :: (kv a ++ kvs as) := by simp [kvs]
    rw [e]
    have e2 : stripLoop (32 :: (kv a ++ kvs as)) 0 0 = stripLoop (kv a ++ kvs as) 0 1 := by simp [stripLoop, isSpace]
    rw [e2, stripLoop_kv (h a (by simp)), ih fun b hb => h b (by simp [hb])]
    simp

theorem kv_ne {a : List UInt8 × List UInt8} (hn : IsName a.1) : ∃ c r, kv a = c :: r ∧ isSpace c = false ∧ c ≠ 0 := by
  obtain ⟨h0, h1, _⟩ := hn
  cases e : a.1 with
  | nil => exact absurd e h0
  | cons c r =>
    have := name_ne (h1 c (by simp [e]))
    exact ⟨c, _, by simp only [kv, e, List.cons_append]; rfl, this.1, this.2.2.2.2.2.2.2.2.2.1⟩

/-- The last byte of attributes is a quote. -/
theorem kvs_last {as : Attrs} (h : as ≠ []) : ∃ r, kvs as = r ++ [34] := by
  induction as with
  | nil => exact absurd rfl h
  | cons a as ih =>
    cases as with
    | nil => exact ⟨32 :: (a.1 ++ [61, 34] ++ attrEncode a.2), by simp [kvs, kv]⟩
    | cons b as =>
      obtain ⟨r, e⟩ := ih (by simp)
      exact ⟨32 :: kv a ++ r, by rw [show kvs (a :: b :: as) = 32 :: kv a ++ kvs (b :: as) from by simp [kvs], e]; simp⟩

theorem dropWhile_spaces (sp x : List UInt8) (h : ∀ c ∈ sp, isSpace c = true) : (sp ++ x).dropWhile isSpace = x.dropWhile isSpace := by
  induction sp with
  | nil => rfl
  | cons c sp ih => simp [List.dropWhile, h c (by simp), ih fun d hd => h d (by simp [hd])]

theorem strip_kvs {a : List UInt8 × List UInt8} {as : Attrs} (h : ∀ b ∈ a :: as, IsName b.1) (sp : List UInt8) (hsp : ∀ c ∈ sp, isSpace c = true) :
    strip (kvs (a :: as) ++ sp) = some (kv a ++ kvs as) := by
  obtain ⟨c, r, e, hc, _⟩ := kv_ne (h a (by simp))
  have e1 : kvs (a :: as) = 32 :: (kv a ++ kvs as) := by simp [kvs]
  have e2 : (kvs (a :: as) ++ sp).dropWhile isSpace = kv a ++ kvs as ++ sp := by
    have hs : isSpace 32 = true := by decide
    rw [e1, e]
    simp only [List.cons_append, List.dropWhile_cons, hs, hc, if_true, Bool.false_eq_true, if_false]
  simp only [strip, e2]
  have hne : kv a ++ kvs as ++ sp ≠ [] := by simp [e]
  rw [if_neg hne]
  obtain ⟨l, el⟩ := kvs_last (as := a :: as) (by simp)
  have hl : ∃ l', kv a ++ kvs as = l' ++ [34] := by
    rw [e1] at el
    cases l with
    | nil => simp [e] at el
    | cons x l => simp only [List.cons_append, List.cons.injEq] at el; exact ⟨l, el.2⟩
  obtain ⟨l', el'⟩ := hl
  have e3 : ((kv a ++ kvs as ++ sp).reverse.dropWhile isSpace).reverse = kv a ++ kvs as := by
    rw [List.reverse_append, dropWhile_spaces _ _ (fun c hc => hsp c (List.mem_reverse.1 hc)), el']
    simp [List.dropWhile, isSpace]
  rw [e3, stripLoop_kv (h a (by simp)), stripLoop_kvs fun b hb => h b (by simp [hb])]
  simp

theorem strip_none (sp : List UInt8) (hsp : ∀ c ∈ sp, isSpace c = true) : strip sp = none := by
  have := dropWhile_spaces sp [] hsp
  simp only [List.append_nil, List.dropWhile] at this
  simp [strip, this]

theorem kv_split {a : List UInt8 × List UInt8} (hn : IsName a.1) : explodeUnq 61 (kv a) = [a.1, [34] ++ attrEncode a.2 ++ [34]] := by
  have h1 : Skips 61 a.1 := skips_name fun c hc => ⟨(name_ne (hn.2.1 c hc)).2.1, (name_ne (hn.2.1 c hc)).2.2.1, (name_ne (hn.2.1 c hc)).2.2.2.2.2.2.2.2.1⟩
  have e : kv a = a.1 ++ 61 :: ([34] ++ attrEncode a.2 ++ [34]) := by simp [kv]
  have f := found h1 (by decide) (by decide) ([34] ++ attrEncode a.2 ++ [34])
  have g := not_found (skips_quoted 61 (attrEncode_quote a.2))
  have hl : (kv a).length = ((kv a).length - 2) + 1 + 1 := by simp [e]; omega
  simp only [explodeUnq]
  rw [hl, e]
  simp only [explodeAt, f, List.take_left]
  have hd : (a.1 ++ 61 :: ([34] ++ attrEncode a.2 ++ [34])).drop (a.1.length + 1) = [34] ++ attrEncode a.2 ++ [34] := by
    rw [List.drop_append]
    simp
  rw [hd, g]

theorem unquote_name {n : List UInt8} (h : IsName n) : unquoteVal n = n := by
  obtain ⟨h0, h1, _⟩ := h
  cases n with
  | nil => rfl
  | cons c r =>
    have := name_ne (h1 c (by simp))
    simp only [unquoteVal]
    rw [if_pos ⟨this.2.1, this.2.2.1⟩]

theorem unquote_val (v : List UInt8) : unquoteVal ([34] ++ v ++ [34]) = v := by
  simp only [List.append_assoc, List.cons_append, List.nil_append, unquoteVal]
  rw [if_neg (by simp), if_pos (by rw [List.getLast?_cons]; simp)]
  simp

/-- Attributes with distinct names are read one after the other. -/
theorem attrsLoop_eq (fl : RFlags) (hfl : fl.rawAttrs = false) (as : Attrs) : ∀ pre : Attrs, GoodAttrs (pre ++ as) → attrsLoop fl pre (as.map kv) = some (pre ++ as) := by
  induction as with
  | nil => intro pre _; simp [attrsLoop]
  | cons a as ih =>
    intro pre hg
    have ha := hg.1 a (by simp)
    simp only [List.map_cons, attrsLoop, kv_split ha.1, hfl, List.headD_cons, List.getElem?_cons_succ, List.getElem?_cons_zero, Option.map_some, Option.getD_some,
      unquote_name ha.1, unquote_val, attr_roundtrip a.2 ha.2, Bool.false_eq_true, if_false]
    have hany : (pre.any fun b => eq true b.1 a.1) = false := by
      rw [List.any_eq_false]
      intro b hb
      rw [Str.eq_iff _ _ _ (hg.1 b (by simp [hb])).1.2.2 ha.1.2.2]
      exact (List.pairwise_append.1 hg.2).2.2 b hb a (by simp)
    have hi : insertAttr pre a.1 (some a.2) = some (pre ++ [a]) := by
      simp only [insertAttr]
      rw [if_neg ha.1.1, hany]
      simp
    rw [hi, Option.bind_some, ih (pre ++ [a]) (by simpa using hg)]
    simp

theorem explode_kvs {a : List UInt8 × List UInt8} {as : Attrs} (h : ∀ b ∈ a :: as, IsName b.1) : ∀ n, as.length ≤ n → explodeAt 32 n (kv a ++ kvs as) = (a :: as).map kv := by
  induction as generalizing a with
  | nil =>
    intro n _
    have := not_found (skips_kv (ch := 32) (h a (by simp)) (by decide) fun c hc => (name_ne ((h a (by simp)).2.1 c hc)).2.2.2.2.2.2.2.2.2.2)
    cases n with
    | zero => simp [explodeAt, kvs]
    | succ n => simp [explodeAt, kvs, this]
  | cons b as ih =>
    intro n hn
    have hs := skips_kv (ch := 32) (h a (by simp)) (by decide) fun c hc => (name_ne ((h a (by simp)).2.1 c hc)).2.2.2.2.2.2.2.2.2.2
    obtain ⟨n, rfl⟩ : ∃ m, n = m + 1 := ⟨n - 1, by simp at hn; omega⟩
    have e : kv a ++ kvs (b :: as) = kv a ++ 32 :: (kv b ++ kvs as) := by simp [kvs]
    rw [e]
    simp only [explodeAt, found hs (by decide) (by decide), List.take_left]
    have hd : (kv a ++ 32 :: (kv b ++ kvs as)).drop ((kv a).length + 1) = kv b ++ kvs as := by rw [List.drop_append]; simp
    rw [hd, ih (fun c hc => h c (by simp at hc ⊢; exact Or.inr hc)) n (by simp at hn; omega)]
    rfl

theorem kvs_noNul {as : Attrs} (h : GoodAttrs as) : (0 : UInt8) ∉ kvs as := by
  intro h0
  simp only [kvs, List.mem_flatMap, List.mem_cons, kv, List.mem_append] at h0
  obtain ⟨a, ha, h0⟩ := h0
  have hn := (h.1 a ha).1.noNul
  have hv := (h.1 a ha).2
  rcases h0 with h0 | h0 | (h0 | h0) | h0
  · exact absurd h0 (by decide)
  · exact hn h0
  · simp at h0
  · simp only [attrEncode, encodeInt_eq, List.mem_flatMap] at h0
    obtain ⟨b, hb, h0⟩ := h0
    rcases enc1_attr b with ⟨e, _⟩ | hr
    · rw [e, List.mem_singleton] at h0; subst h0; exact hv hb
    · revert h0
      generalize enc1 attrTable b = r at hr
      cases hr <;> decide
  · simp at h0

/-- Written attributes, followed by white space, are read back. -/
theorem readAttrs_kvs (fl : RFlags) (hfl : fl.rawAttrs = false) {as : Attrs} (h : GoodAttrs as) (sp : List UInt8) (hsp : ∀ c ∈ sp, isSpace c = true) :
    readAttrs fl (kvs as ++ sp) = some as := by
  cases as with
  | nil => simp [kvs, readAttrs, strip_none sp hsp]
  | cons a as =>
    have hn : ∀ b ∈ a :: as, IsName b.1 := fun b hb => (h.1 b hb).1
    have h0 : (0 : UInt8) ∉ kv a ++ kvs as := by
      have := kvs_noNul h
      rw [show kvs (a :: as) = 32 :: (kv a ++ kvs as) from by simp [kvs]] at this
      exact fun hm => this (List.mem_cons_of_mem _ hm)
    have hlen : as.length ≤ (kv a ++ kvs as).length := by
      have : ∀ as : Attrs, as.length ≤ (kvs as).length := by
        intro as
        induction as with
        | nil => simp
        | cons b as ih => rw [show kvs (b :: as) = 32 :: (kv b ++ kvs as) from by simp [kvs]]; simp; omega
      have := this as
      simp; omega
    simp only [readAttrs, strip_kvs hn sp hsp, cstr_eq h0, explodeUnq, explode_kvs hn _ hlen]
    rw [attrsLoop_eq fl hfl (a :: as) [] (by simpa using h)]
    rfl

/-! ### Tags -/

theorem dropWhile_name {n : List UInt8} (h : IsName n) (x : List UInt8) : (n ++ x).dropWhile isSpace = n ++ x := by
  obtain ⟨h0, h1, _⟩ := h
  cases n with
  | nil => exact absurd rfl h0
  | cons c r => rw [List.cons_append, List.dropWhile_cons, (name_ne (h1 c (by simp))).1]; simp

theorem takeWhile_name {n : List UInt8} (h : IsName n) (x : List UInt8) (hx : ∀ c t, x = c :: t → isSpace c = true) :
    (n ++ x).takeWhile (fun c => !isSpace c) = n := by
  rw [List.takeWhile_append_of_pos (fun c hc => by simp [(name_ne (h.2.1 c hc)).1])]
  cases x with
  | nil => simp
  | cons c t => simp [List.takeWhile_cons, hx c t rfl]

theorem skips_tag {ch : UInt8} {n : List UInt8} (h : IsName n) (hc : ∀ c, NameByte c → c ≠ ch) : Skips ch n :=
  skips_name fun c hc' => ⟨(name_ne (h.2.1 c hc')).2.1, (name_ne (h.2.1 c hc')).2.2.1, hc c (h.2.1 c hc')⟩

/-- The last byte of a name and of attributes is no slash, no question mark, and no white space. -/
theorem last_tag {n : List UInt8} (h : IsName n) (as : Attrs) : ∃ r c, n ++ kvs as = r ++ [c] ∧ isSpace c = false ∧ c ≠ 47 ∧ c ≠ 63 := by
  by_cases ha : as = []
  · subst ha
    have e := List.dropLast_concat_getLast h.1
    have hc := name_ne (h.2.1 _ (List.getLast_mem h.1))
    exact ⟨n.dropLast, n.getLast h.1, by rw [e]; simp [kvs], hc.1, hc.2.2.2.2.2.1, hc.2.2.2.2.2.2.1⟩
  · obtain ⟨r, e⟩ := kvs_last ha
    exact ⟨n ++ r, 34, by rw [e, List.append_assoc], by decide, by decide, by decide⟩

theorem findReverse_none {ch c : UInt8} {s r : List UInt8} (e : s = r ++ [c]) (h1 : isSpace c = false) (h2 : c ≠ ch) : findReverse ch s = none := by
  subst e
  simp only [findReverse, List.reverse_append, List.reverse_singleton, List.cons_append, List.nil_append, List.dropWhile_cons, h1, Bool.false_eq_true, if_false, h2]

theorem findReverse_some {ch : UInt8} (h1 : isSpace ch = false) (s : List UInt8) : findReverse ch (s ++ [ch]) = some s.length := by
  simp only [findReverse, List.reverse_append, List.reverse_singleton, List.cons_append, List.nil_append, List.dropWhile_cons, h1, Bool.false_eq_true, if_false,
    if_true, List.length_reverse]

theorem kvs_space (as : Attrs) (sp : List UInt8) (hsp : ∀ c ∈ sp, isSpace c = true) : ∀ c t, kvs as ++ sp = c :: t → isSpace c = true := by
  intro c t e
  cases as with
  | nil => simp only [kvs, List.flatMap_nil, List.nil_append] at e; exact hsp c (by simp [e])
  | cons a as =>
    rw [show kvs (a :: as) = 32 :: (kv a ++ kvs as) from by simp [kvs], List.cons_append, List.cons.injEq] at e
    rw [← e.1]; decide

theorem tagType_start {n : List UInt8} (h : IsName n) (x : List UInt8) : tagType (n ++ x) = .ok (.start, n ++ x) := by
  obtain ⟨h0, h1, _⟩ := h
  cases n with
  | nil => exact absurd rfl h0
  | cons c r =>
    have := name_ne (h1 c (by simp))
    simp only [List.cons_append, tagType]
    rw [if_neg this.2.2.2.2.2.1, if_neg this.2.2.2.2.2.2.1, if_neg this.2.2.2.1, if_neg this.2.2.2.2.2.2.2.1]

theorem take_drop_found (a x : List UInt8) (c : UInt8) : (a ++ c :: x).take a.length = a ∧ (a ++ c :: x).drop (a.length + 1) = x := by
  refine ⟨List.take_left, ?_⟩
  rw [List.drop_append]; simp

theorem tagInfo_start {n : List UInt8} (h : IsName n) {as : Attrs} (ha : GoodAttrs as) (x : List UInt8) :
    tagInfo (60 :: (n ++ (kvs as ++ 62 :: x))) = .ok ⟨.start, n, kvs as ++ 62 :: x, kvs as, x⟩ := by
  have hs : Skips 62 (n ++ kvs as) := Skips.append (skips_tag h fun c hc => (name_ne hc).2.2.2.2.1)
    (skips_kvs (by decide) (by decide) (fun c hc => (name_ne hc).2.2.2.2.1) fun a ha' => (ha.1 a ha').1)
  have hf := found hs (by decide) (by decide) x
  obtain ⟨r, c, e, h1, h2, _⟩ := last_tag h as
  have hr := findReverse_none e h1 h2
  have htd := take_drop_found (n ++ kvs as) x 62
  rw [List.append_assoc] at hf htd
  simp only [tagInfo, ne_eq, not_true, if_false, dropWhile_name h, tagType_start h, Res.bind, tagEnd, tagPos, hf, Option.map_some, htd.1, hr, htd.2]
  rw [if_neg (by simp)]
  have ht := takeWhile_name h (kvs as) (by simpa using kvs_space as [] (by simp))
  simp only [ht, cstr_eq h.noNul, List.drop_left]
  rw [if_neg h.1]

theorem tagInfo_empty {n : List UInt8} (h : IsName n) {as : Attrs} (ha : GoodAttrs as) (sp x : List UInt8) (hsp : ∀ c ∈ sp, isSpace c = true) :
    tagInfo (60 :: (n ++ (kvs as ++ (sp ++ 47 :: 62 :: x)))) = .ok ⟨.empty, n, kvs as ++ (sp ++ 47 :: 62 :: x), kvs as ++ sp, x⟩ := by
  have hsps : Skips 62 sp := skips_name fun c hc => by
    have := (space_iff c).1 (hsp c hc)
    refine ⟨?_, ?_, ?_⟩ <;> · intro e; subst e; revert this; unfold Space; decide
  have hs : Skips 62 (n ++ kvs as ++ (sp ++ [47])) := Skips.append (Skips.append (skips_tag h fun c hc => (name_ne hc).2.2.2.2.1)
    (skips_kvs (by decide) (by decide) (fun c hc => (name_ne hc).2.2.2.2.1) fun a ha' => (ha.1 a ha').1))
    (Skips.append hsps (skips_one (by decide) (by decide) (by decide)))
  have hf := found hs (by decide) (by decide) x
  have hr := findReverse_some (ch := 47) (by decide) (n ++ (kvs as ++ sp))
  have htd := take_drop_found (n ++ kvs as ++ (sp ++ [47])) x 62
  simp only [List.append_assoc, List.cons_append, List.nil_append] at hf htd hr
  simp only [tagInfo, ne_eq, not_true, if_false, dropWhile_name h, tagType_start h, Res.bind, tagEnd, tagPos, hf, Option.map_some, htd.1, hr, htd.2]
  rw [if_neg (by simp)]
  have e4 : (n ++ (kvs as ++ (sp ++ 47 :: 62 :: x))).take (n ++ (kvs as ++ sp)).length = n ++ (kvs as ++ sp) := by
    rw [show n ++ (kvs as ++ (sp ++ 47 :: 62 :: x)) = (n ++ (kvs as ++ sp)) ++ 47 :: 62 :: x from by simp, List.take_left]
  have ht := takeWhile_name h (kvs as ++ sp) (kvs_space as sp hsp)
  simp only [e4, ht, cstr_eq h.noNul, List.drop_left]
  rw [if_neg h.1]

theorem tagInfo_end {n : List UInt8} (h : IsName n) (x : List UInt8) : tagInfo (60 :: 47 :: (n ++ 62 :: x)) = .ok ⟨.endTag, n, 62 :: x, [], x⟩ := by
  have hf := found (skips_tag (ch := 62) h fun c hc => (name_ne hc).2.2.2.2.1) (by decide) (by decide) x
  have htd := take_drop_found n x 62
  have h47 : isSpace 47 = false := by decide
  simp only [tagInfo, ne_eq, not_true, if_false, List.dropWhile_cons, h47, Bool.false_eq_true, tagType, if_true, dropWhile_name h, Res.bind, tagEnd, tagPos, hf,
    Option.map_some, htd.1, htd.2]
  rw [if_neg (by simp)]
  have ht := takeWhile_name h [] (by simp)
  rw [List.append_nil] at ht
  simp only [ht, cstr_eq h.noNul, List.drop_left]
  rw [if_neg h.1]
  simp

theorem tagInfo_pi {n : List UInt8} (h : IsName n) {as : Attrs} (ha : GoodAttrs as) (x : List UInt8) :
    tagInfo (60 :: 63 :: (n ++ (kvs as ++ 63 :: 62 :: x))) = .ok ⟨.pi, n, kvs as ++ 63 :: 62 :: x, kvs as, x⟩ := by
  have hs : Skips 62 (n ++ kvs as ++ [63]) := Skips.append (Skips.append (skips_tag h fun c hc => (name_ne hc).2.2.2.2.1)
    (skips_kvs (by decide) (by decide) (fun c hc => (name_ne hc).2.2.2.2.1) fun a ha' => (ha.1 a ha').1)) (skips_one (by decide) (by decide) (by decide))
  have hf := found hs (by decide) (by decide) x
  have hr := findReverse_some (ch := 63) (by decide) (n ++ kvs as)
  have htd := take_drop_found (n ++ kvs as ++ [63]) x 62
  simp only [List.append_assoc, List.cons_append, List.nil_append] at hf htd hr
  have h63 : isSpace 63 = false := by decide
  simp only [tagInfo, ne_eq, not_true, if_false, List.dropWhile_cons, h63, Bool.false_eq_true, tagType, if_true, dropWhile_name h, Res.bind, tagEnd, tagPos, hf,
    Option.map_some, htd.1, hr, htd.2]
  simp only [show ¬ ((63 : UInt8) = 47) from by decide, if_false]
  simp only [hf, Option.map_some, htd.1, hr, htd.2]
  rw [if_neg (by simp)]
  have e4 : (n ++ (kvs as ++ 63 :: 62 :: x)).take (n ++ kvs as).length = n ++ kvs as := by
    rw [show n ++ (kvs as ++ 63 :: 62 :: x) = (n ++ kvs as) ++ 63 :: 62 :: x from by simp, List.take_left]
  have ht := takeWhile_name h (kvs as) (by simpa using kvs_space as [] (by simp))
  simp only [e4, ht, cstr_eq h.noNul, List.drop_left]
  rw [if_neg h.1]

end Verif.Xml
