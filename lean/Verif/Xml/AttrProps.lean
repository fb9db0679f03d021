import Verif.Xml.ReadProps
/-! Attributes in any layout: lemmas for C74. -/
namespace Verif.Xml
open Verif.Str (Alike eq)
open Verif.Chr (isSpace)

/-- White space only. -/
def Spaces (s : List UInt8) : Prop := ∀ c ∈ s, Space c

/-- The value `v` of an attribute and its text `w`. -/
def ValueIs (raw : Bool) (w v : List UInt8) : Prop := if raw then v = w else Denotes AttrRef w v ∧ (0 : UInt8) ∉ v

/-- The text of attributes: white space, a name, an equals sign, which may have white space around it, and a value in quotes. -/
inductive WfAttrs (raw : Bool) : List UInt8 → Attrs → Prop
  | nil {sp : List UInt8} (hs : Spaces sp) : WfAttrs raw sp []
  | cons {sp k s1 s2 w v t : List UInt8} {q : UInt8} {as : Attrs} (hs : Spaces sp) (h0 : sp ≠ []) (hk : IsName k) (hs1 : Spaces s1) (hs2 : Spaces s2)
      (hq : q = 34 ∨ q = 39) (hw : q ∉ w) (hv : ValueIs raw w v) (ht : WfAttrs raw t as) :
      WfAttrs raw (sp ++ (k ++ (s1 ++ 61 :: (s2 ++ q :: (w ++ q :: t))))) ((k, v) :: as)

theorem spaces_iff (s : List UInt8) : Spaces s ↔ ∀ c ∈ s, isSpace c = true := by
  simp only [Spaces, space_iff]

/-- An attribute: name, quote, text, value. -/
structure RawA where
  k : List UInt8
  q : UInt8
  w : List UInt8
  v : List UInt8

/-- The attribute without white space. -/
def RawA.txt (a : RawA) : List UInt8 := a.k ++ 61 :: ([a.q] ++ a.w ++ [a.q])

def RawA.Ok (raw : Bool) (a : RawA) : Prop := IsName a.k ∧ (a.q = 34 ∨ a.q = 39) ∧ a.q ∉ a.w ∧ ValueIs raw a.w a.v

def txts (l : List RawA) : List UInt8 := l.flatMap fun a => 32 :: a.txt

theorem skips_quote (ch : UInt8) {q : UInt8} (hq : q = 34 ∨ q = 39) {v : List UInt8} (h : q ∉ v) : Skips ch ([q] ++ v ++ [q]) := by
  intro x
  have hq0 : q ≠ 0 := by rcases hq with rfl | rfl <;> decide
  have hq' : q = 39 ∨ q = 34 := hq.symm
  have inner : ∀ (v : List UInt8), q ∉ v → findUnquoted ch (v ++ q :: x) q = (findUnquoted ch x 0).map (· + (v.length + 1)) := by
    intro v
    induction v with
    | nil => intro _; simp [findUnquoted, hq', hq0]
    | cons c v ih =>
      intro hv
      simp only [List.mem_cons, not_or] at hv
      have hc : c ≠ q := fun e => hv.1 e.symm
      simp only [List.cons_append, findUnquoted]
      by_cases h39 : c = 39 ∨ c = 34
      · rw [if_pos h39]
        simp only [ne_eq, hq0, not_false_eq_true, if_true, hc, if_false, ih hv.2]
        cases findUnquoted ch x 0 <;> simp <;> omega
      · rw [if_neg h39, if_neg (fun h => hq0 h.2), ih hv.2]
        cases findUnquoted ch x 0 <;> simp <;> omega
  simp only [List.append_assoc, List.cons_append, List.nil_append, findUnquoted]
  rw [if_pos hq']
  simp only [ne_eq, not_true, if_false, inner v h]
  cases findUnquoted ch x 0 <;> simp <;> omega

theorem skips_txt {raw : Bool} {ch : UInt8} {a : RawA} (h : a.Ok raw) (hch : ch ≠ 61) (hc : ∀ c ∈ a.k, c ≠ ch) : Skips ch a.txt := by
  obtain ⟨hn, hq, hw, _⟩ := h
  have h1 : Skips ch a.k := skips_name fun c hc' => ⟨(name_ne (hn.2.1 c hc')).2.1, (name_ne (hn.2.1 c hc')).2.2.1, hc c hc'⟩
  have h2 : Skips ch [61] := skips_one (by decide) (by decide) (Ne.symm hch)
  have h3 := Skips.append h1 (Skips.append h2 (skips_quote ch hq hw))
  simpa [RawA.txt] using h3

theorem stripLoop_spaces (sp x : List UInt8) (h : Spaces sp) (req : Int) :
    stripLoop (sp ++ x) 0 req = stripLoop x 0 (if sp = [] ∨ req = -1 then req else 1) := by
  induction sp generalizing req with
  | nil => simp
  | cons c sp ih =>
    have hc := (space_iff c).2 (h c (by simp))
    have h39 : ¬ (c = 39 ∨ c = 34) := by rintro (rfl | rfl) <;> exact absurd hc (by decide)
    rw [List.cons_append, stripLoop]
    simp only [ne_eq, not_true, if_false, h39, hc, if_true]
    rw [ih (fun d hd => h d (by simp [hd]))]
    congr 1
    by_cases h1 : req = -1 <;> simp [h1]

theorem stripLoop_quote (q : UInt8) (hq : q ≠ 0) (v x : List UInt8) (req : Int) (h : q ∉ v) : stripLoop (v ++ q :: x) q req = v ++ q :: stripLoop x 0 req := by
  induction v with
  | nil => simp [stripLoop, hq]
  | cons c v ih =>
    simp only [List.mem_cons, not_or] at h
    have hc : c ≠ q := fun e => h.1 e.symm
    simp [stripLoop, hq, hc, ih h.2]

theorem stripLoop_attr {k s1 s2 w : List UInt8} {q : UInt8} (hk : IsName k) (hs1 : Spaces s1) (hs2 : Spaces s2) (hq : q = 34 ∨ q = 39) (hw : q ∉ w) (t : List UInt8) (req : Int) :
    stripLoop (k ++ (s1 ++ 61 :: (s2 ++ q :: (w ++ q :: t)))) 0 req = (if req = 1 then [32] else []) ++ (k ++ 61 :: ([q] ++ w ++ [q])) ++ stripLoop t 0 0 := by
  have hq0 : q ≠ 0 := by rcases hq with rfl | rfl <;> decide
  rw [stripLoop_name _ _ hk.2.1 hk.1, stripLoop_spaces _ _ hs1, stripLoop]
  have h61 : ¬ ((61 : UInt8) = 39 ∨ (61 : UInt8) = 34) := by decide
  simp only [ne_eq, not_true, if_false, h61, show isSpace 61 = false by decide, Bool.false_eq_true, if_true]
  rw [stripLoop_spaces _ _ hs2]
  simp only [or_true, if_true]
  rw [stripLoop]
  simp only [ne_eq, not_true, if_false, hq.symm, if_true, show ¬ ((-1 : Int) = 1) by decide]
  rw [stripLoop_quote q hq0 _ _ _ hw]
  simp

/-- Attributes in a row. -/
theorem wf_pieces {raw : Bool} {r : List UInt8} {as : Attrs} (h : WfAttrs raw r as) : ∃ (l : List RawA) (core sp : List UInt8), r = core ++ sp ∧ Spaces sp ∧
    (∀ a ∈ l, a.Ok raw) ∧ as = l.map (fun a => (a.k, a.v)) ∧ stripLoop core 0 0 = txts l ∧ (l = [] → core = []) ∧
    ∀ a l', l = a :: l' → ∃ sp0 c0 core' q', core = sp0 ++ core' ∧ Spaces sp0 ∧ (∃ z, core' = c0 :: z) ∧ isSpace c0 = false ∧ (∃ z, core' = z ++ [q']) ∧ isSpace q' = false ∧
      stripLoop core' 0 0 = a.txt ++ txts l' := by
  induction h with
  | nil hs => exact ⟨[], [], _, rfl, hs, by simp, rfl, rfl, fun _ => rfl, by simp⟩
  | @cons sp k s1 s2 w v t q as hs h0 hk hs1 hs2 hq hw hv ht ih =>
    obtain ⟨l, core, spE, e, hsE, hok, eas, hst, hnil, hlast⟩ := ih
    have hqs : isSpace q = false := by rcases hq with rfl | rfl <;> decide
    have hz : ∃ q' z, k ++ (s1 ++ 61 :: (s2 ++ q :: (w ++ q :: core))) = z ++ [q'] ∧ isSpace q' = false := by
      cases l with
      | nil => exact ⟨q, k ++ (s1 ++ 61 :: (s2 ++ q :: w)), by rw [hnil rfl]; simp, hqs⟩
      | cons a l' =>
        obtain ⟨sp0, c0, core', q', e1, _, _, _, ⟨z, ez⟩, hq', _⟩ := hlast a l' rfl
        exact ⟨q', k ++ (s1 ++ 61 :: (s2 ++ q :: (w ++ q :: (sp0 ++ z)))), by rw [e1, ez]; simp, hq'⟩
    obtain ⟨q', z, ez, hq'⟩ := hz
    have hatt := fun req => stripLoop_attr hk hs1 hs2 hq hw core req
    obtain ⟨c0, k', ek, hc0⟩ : ∃ c0 k', k = c0 :: k' ∧ isSpace c0 = false := by
      cases k with
      | nil => exact absurd rfl hk.1
      | cons c k => exact ⟨c, k, rfl, (name_ne (hk.2.1 c (by simp))).1⟩
    refine ⟨⟨k, q, w, v⟩ :: l, sp ++ (k ++ (s1 ++ 61 :: (s2 ++ q :: (w ++ q :: core)))), spE, by rw [e]; simp, hsE, ?_, by rw [eas]; rfl, ?_, by simp, ?_⟩
    · intro a ha
      rcases List.mem_cons.1 ha with rfl | ha
      · exact ⟨hk, hq, hw, hv⟩
      · exact hok a ha
    · rw [stripLoop_spaces _ _ hs, hatt, hst]
      simp [h0, txts, RawA.txt]
    · intro a l' el
      obtain ⟨rfl, rfl⟩ := List.cons.inj el
      refine ⟨sp, c0, _, q', rfl, hs, ⟨k' ++ _, by rw [ek]; rfl⟩, hc0, ⟨z, ez⟩, hq', ?_⟩
      rw [hatt, hst]
      simp [RawA.txt]

theorem strip_wf {raw : Bool} {r : List UInt8} {as : Attrs} (h : WfAttrs raw r as) : ∃ l : List RawA, (∀ a ∈ l, a.Ok raw) ∧ as = l.map (fun a => (a.k, a.v)) ∧
    strip r = match l with | [] => none | a :: l' => some (a.txt ++ txts l') := by
  obtain ⟨l, core, sp, e, hsp, hok, eas, _, hnil, hl⟩ := wf_pieces h
  refine ⟨l, hok, eas, ?_⟩
  cases l with
  | nil => rw [e, hnil rfl]; exact strip_none _ ((spaces_iff sp).1 hsp)
  | cons a l' =>
    obtain ⟨sp0, c0, core', q', e1, hsp0, ⟨z0, ez0⟩, hc0, ⟨z, ez⟩, hq', hst⟩ := hl a l' rfl
    simp only [strip]
    have h1 : r.dropWhile isSpace = core' ++ sp := by
      rw [e, e1, List.append_assoc, dropWhile_spaces _ _ ((spaces_iff sp0).1 hsp0), ez0, List.cons_append, List.dropWhile_cons, hc0]
      simp
    rw [h1, if_neg (by rw [ez0]; simp)]
    have h2 : ((core' ++ sp).reverse.dropWhile isSpace).reverse = core' := by
      rw [List.reverse_append, dropWhile_spaces _ _ (fun c hc => (spaces_iff sp).1 hsp c (List.mem_reverse.1 hc)), ez]
      simp only [List.reverse_append, List.reverse_cons, List.reverse_nil, List.cons_append, List.nil_append, List.dropWhile_cons, hq', Bool.false_eq_true, if_false,
        List.reverse_reverse]
    rw [h2, hst]

theorem txt_split {raw : Bool} {a : RawA} (h : a.Ok raw) : explodeUnq 61 a.txt = [a.k, [a.q] ++ a.w ++ [a.q]] := by
  obtain ⟨hn, hq, hw, _⟩ := h
  have h1 : Skips 61 a.k := skips_name fun c hc => ⟨(name_ne (hn.2.1 c hc)).2.1, (name_ne (hn.2.1 c hc)).2.2.1, (name_ne (hn.2.1 c hc)).2.2.2.2.2.2.2.2.1⟩
  have f := found h1 (by decide) (by decide) ([a.q] ++ a.w ++ [a.q])
  have g := not_found (skips_quote 61 hq hw)
  have hl : a.txt.length = (a.txt.length - 2) + 1 + 1 := by simp [RawA.txt]; omega
  simp only [explodeUnq]
  rw [hl]
  unfold RawA.txt
  simp only [explodeAt, f, List.take_left]
  have hd : (a.k ++ 61 :: ([a.q] ++ a.w ++ [a.q])).drop (a.k.length + 1) = [a.q] ++ a.w ++ [a.q] := by
    rw [List.drop_append]
    simp
  rw [hd, g]

theorem unquote_q {q : UInt8} (hq : q = 34 ∨ q = 39) (v : List UInt8) : unquoteVal ([q] ++ v ++ [q]) = v := by
  simp only [List.append_assoc, List.cons_append, List.nil_append, unquoteVal]
  rw [if_neg (by rcases hq with rfl | rfl <;> simp), if_pos (by rw [List.getLast?_cons]; simp)]
  simp

theorem txts_explode {raw : Bool} {a : RawA} {l : List RawA} (h : ∀ b ∈ a :: l, b.Ok raw) : ∀ n, l.length ≤ n → explodeAt 32 n (a.txt ++ txts l) = (a :: l).map RawA.txt := by
  induction l generalizing a with
  | nil =>
    intro n _
    have ha := h a (by simp)
    have := not_found (skips_txt (ch := 32) ha (by decide) fun c hc => (name_ne (ha.1.2.1 c hc)).2.2.2.2.2.2.2.2.2.2)
    cases n with
    | zero => simp [explodeAt, txts]
    | succ n => simp [explodeAt, txts, this]
  | cons b l ih =>
    intro n hn
    have ha := h a (by simp)
    have hs := skips_txt (ch := 32) ha (by decide) fun c hc => (name_ne (ha.1.2.1 c hc)).2.2.2.2.2.2.2.2.2.2
    obtain ⟨n, rfl⟩ : ∃ m, n = m + 1 := ⟨n - 1, by simp at hn; omega⟩
    have e : a.txt ++ txts (b :: l) = a.txt ++ 32 :: (b.txt ++ txts l) := by simp [txts]
    rw [e]
    simp only [explodeAt, found hs (by decide) (by decide), List.take_left]
    have hd : (a.txt ++ 32 :: (b.txt ++ txts l)).drop (a.txt.length + 1) = b.txt ++ txts l := by rw [List.drop_append]; simp
    rw [hd, ih (fun c hc => h c (by simp at hc ⊢; exact Or.inr hc)) n (by simp at hn; omega)]
    rfl

theorem attrsLoop_step {fl : RFlags} {a : RawA} (h : a.Ok fl.rawAttrs) (pre : Attrs) (l : List (List UInt8)) :
    attrsLoop fl pre (a.txt :: l) = if pre.any (fun b => eq true b.1 a.k) then none else attrsLoop fl (pre ++ [(a.k, a.v)]) l := by
  have hv : (if fl.rawAttrs then (some a.w : Option (List UInt8)) else some (attrDecode a.w)) = some a.v := by
    obtain ⟨_, _, _, hv⟩ := h
    unfold ValueIs at hv
    by_cases hr : fl.rawAttrs = true
    · rw [if_pos hr] at hv ⊢; rw [hv]
    · rw [if_neg hr] at hv ⊢; rw [attrDecode_partial hv.1 hv.2]
  simp only [attrsLoop, txt_split h, List.headD_cons, List.getElem?_cons_succ, List.getElem?_cons_zero, Option.map_some, Option.getD_some, unquote_name h.1, unquote_q h.2.1, hv]
  simp only [insertAttr]
  rw [if_neg h.1.1]
  split <;> simp

theorem attrsLoop_some {fl : RFlags} (l : List RawA) : ∀ (pre : Attrs) (as : Attrs), (∀ a ∈ l, a.Ok fl.rawAttrs) → attrsLoop fl pre (l.map RawA.txt) = some as →
    as = pre ++ l.map fun a => (a.k, a.v) := by
  induction l with
  | nil => intro pre as _ h; simp [attrsLoop] at h; simp [h]
  | cons a l ih =>
    intro pre as hl h
    rw [List.map_cons, attrsLoop_step (hl a (by simp))] at h
    split at h
    · simp at h
    · have := ih _ _ (fun b hb => hl b (by simp [hb])) h
      rw [this]; simp

theorem attrsLoop_good {fl : RFlags} (l : List RawA) : ∀ (pre : Attrs), (∀ a ∈ l, a.Ok fl.rawAttrs) → (∀ a ∈ pre, a.1.length < 2 ^ 64) →
    (pre ++ l.map fun a => (a.k, a.v)).Pairwise (fun a b => ¬ Alike true a.1 b.1) →
    attrsLoop fl pre (l.map RawA.txt) = some (pre ++ l.map fun a => (a.k, a.v)) := by
  induction l with
  | nil => intro pre _ _ _; simp [attrsLoop]
  | cons a l ih =>
    intro pre hl hp hd
    rw [List.map_cons, attrsLoop_step (hl a (by simp))]
    have ha := hl a (by simp)
    have hany : ¬ (pre.any fun b => eq true b.1 a.k) = true := by
      rw [Bool.not_eq_true, List.any_eq_false]
      intro b hb
      rw [Str.eq_iff _ _ _ (hp b hb) ha.1.2.2]
      exact (List.pairwise_append.1 hd).2.2 b hb (a.k, a.v) (by simp)
    rw [if_neg hany, ih _ (fun b hb => hl b (by simp [hb])) ?_ (by simpa using hd)]
    · simp
    · intro b hb
      rcases List.mem_append.1 hb with hb | hb
      · exact hp b hb
      · rw [List.mem_singleton] at hb; subst hb; exact ha.1.2.2

theorem readAttrs_pieces {fl : RFlags} {r : List UInt8} {as : Attrs} (h : WfAttrs fl.rawAttrs r as) (h0 : (0 : UInt8) ∉ r) : ∃ l : List RawA,
    (∀ a ∈ l, a.Ok fl.rawAttrs) ∧ as = l.map (fun a => (a.k, a.v)) ∧ readAttrs fl r = attrsLoop fl [] (l.map RawA.txt) := by
  obtain ⟨l, hok, eas, hs⟩ := strip_wf h
  refine ⟨l, hok, eas, ?_⟩
  simp only [readAttrs, hs]
  cases l with
  | nil => rfl
  | cons a l =>
    simp only
    have hz : (0 : UInt8) ∉ a.txt ++ txts l := by
      have hsub : ∀ (s : List UInt8) (q : UInt8) (req : Int), (0 : UInt8) ∉ s → (0 : UInt8) ∉ stripLoop s q req := by
        intro s
        induction s with
        | nil => intro q req _; simp [stripLoop]
        | cons c s ih =>
          intro q req hc
          simp only [List.mem_cons, not_or] at hc
          rw [stripLoop]
          have hsp : (0 : UInt8) ∉ (if req = 1 then [32] else [] : List UInt8) := by split <;> simp
          have hcons : ∀ (q : UInt8) (req : Int), (0 : UInt8) ∉ c :: stripLoop s q req := fun q req hm => by
            rcases List.mem_cons.1 hm with hm | hm
            · exact hc.1 hm
            · exact ih _ _ hc.2 hm
          have happ : ∀ x : List UInt8, (0 : UInt8) ∉ x → (0 : UInt8) ∉ (if req = 1 then [32] else [] : List UInt8) ++ x := fun x hx hm => by
            rcases List.mem_append.1 hm with hm | hm
            · exact hsp hm
            · exact hx hm
          split
          · exact hcons _ _
          · split
            · exact happ _ (hcons _ _)
            · split
              · exact ih _ _ hc.2
              · split
                · exact hcons _ _
                · exact happ _ (hcons _ _)
      have : strip r = some (a.txt ++ txts l) := hs
      simp only [strip] at this
      split at this
      · simp at this
      · injection this with this
        rw [← this]
        refine hsub _ _ _ fun hm => h0 ?_
        have h1 := List.mem_reverse.1 hm
        have h2 := (List.dropWhile_sublist _).subset h1
        exact (List.dropWhile_sublist _).subset (List.mem_reverse.1 h2)
    rw [cstr_eq hz, explodeUnq, txts_explode hok]
    have : ∀ l : List RawA, l.length ≤ (txts l).length := by
      intro l
      induction l with
      | nil => simp
      | cons b l ih => simp only [txts, List.flatMap_cons, List.length_append, List.length_cons] at ih ⊢; omega
    have := this l
    simp; omega

/-- Attributes in any layout are read if their names differ in more than case. -/
theorem readAttrs_wf {fl : RFlags} {r : List UInt8} {as : Attrs} (h : WfAttrs fl.rawAttrs r as) (h0 : (0 : UInt8) ∉ r) (hd : as.Pairwise fun a b => ¬ Alike true a.1 b.1) :
    readAttrs fl r = some as := by
  obtain ⟨l, hok, rfl, e⟩ := readAttrs_pieces h h0
  rw [e, attrsLoop_good l [] hok (by simp) (by simpa using hd)]
  simp

/-- Attributes in any layout are read as they are, if at all. -/
theorem readAttrs_is {fl : RFlags} {r : List UInt8} {as as' : Attrs} (h : WfAttrs fl.rawAttrs r as) (h0 : (0 : UInt8) ∉ r) (e : readAttrs fl r = some as') : as' = as := by
  obtain ⟨l, hok, rfl, e2⟩ := readAttrs_pieces h h0
  rw [e2] at e
  have := attrsLoop_some l [] as' hok e
  simpa using this

/-- ` a = '1&lt;'` tab ` b=""` and a line feed -/
example : WfAttrs false ([32] ++ ([97] ++ ([32] ++ 61 :: ([32] ++ 39 :: ([49, 38, 108, 116, 59] ++ 39 :: ([9, 32] ++ ([98] ++ ([] ++ 61 :: ([] ++ 34 :: ([] ++ 34 :: [10]))))))))))
    [([97], [49, 60]), ([98], [])] := by
  have hsp : ∀ l : List UInt8, (∀ c ∈ l, isSpace c = true) → Spaces l := fun l => (spaces_iff l).2
  refine .cons (hsp _ (by decide)) (by simp) ⟨by simp, by decide, by simp⟩ (hsp _ (by decide)) (hsp _ (by decide)) (Or.inr rfl) (by decide) ⟨?_, by decide⟩ ?_
  · exact .plain (by decide) (by decide) (.ref (r := [38, 108, 116, 59]) .lt .nil)
  · exact .cons (hsp _ (by decide)) (by simp) ⟨by simp, by decide, by simp⟩ (hsp _ (by decide)) (hsp _ (by decide)) (Or.inl rfl) (by decide) ⟨.nil, by decide⟩ (.nil (hsp _ (by decide)))

end Verif.Xml
