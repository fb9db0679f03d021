import Verif.Xml.LoopProps
import Verif.Xml.AttrProps
/-! What the XML reader accepts (C74). -/
namespace Verif.Xml
open Verif.Str (Alike eq eqMaxInt eqMax_iff NoOuter trim)
open Verif.Chr (isSpace toLower)

/-! ### Specification -/

/-- The inside of a tag: quoted parts, and no `>` outside of them. -/
inductive Inside : List UInt8 → Prop
  | nil : Inside []
  | plain {c : UInt8} {t : List UInt8} (h1 : c ≠ 34) (h2 : c ≠ 39) (h3 : c ≠ 62) (ht : Inside t) : Inside (c :: t)
  | quoted {q : UInt8} {s t : List UInt8} (hq : q = 34 ∨ q = 39) (hs : q ∉ s) (ht : Inside t) : Inside (q :: (s ++ q :: t))

/-- `n` is the name at the start of `n ++ r`. -/
def HasName (n r : List UInt8) : Prop := n ≠ [] ∧ (∀ c ∈ n, ¬ Space c) ∧ ∀ c t, r = c :: t → Space c

/-- The text of a tag: its kind, the text, the name and what follows the name. -/
inductive TagText : Tag → List UInt8 → List UInt8 → List UInt8 → Prop
  | start {sp n r : List UInt8} (hs : Spaces sp) (hn : HasName n r) (hi : Inside (n ++ r))
      (hf : ∀ c t, n = c :: t → c ≠ 47 ∧ c ≠ 63 ∧ c ≠ 33 ∧ c ≠ 60) (hl : ∀ p s, n ++ r = p ++ 47 :: s → ¬ Spaces s) :
      TagText .start (60 :: sp ++ (n ++ r) ++ [62]) n r
  | empty {sp n r sp2 : List UInt8} (hs : Spaces sp) (hn : HasName n r) (hi : Inside (n ++ r ++ 47 :: sp2)) (hs2 : Spaces sp2)
      (hf : ∀ c t, n = c :: t → c ≠ 47 ∧ c ≠ 63 ∧ c ≠ 33 ∧ c ≠ 60) :
      TagText .empty (60 :: sp ++ (n ++ r ++ 47 :: sp2) ++ [62]) n r
  | endTag {sp sp2 n r : List UInt8} (hs : Spaces sp) (hs2 : Spaces sp2) (hn : HasName n r) (hi : Inside (n ++ r)) :
      TagText .endTag (60 :: sp ++ (47 :: sp2 ++ (n ++ r)) ++ [62]) n r
  | pi {sp sp2 n r sp3 : List UInt8} (hs : Spaces sp) (hs2 : Spaces sp2) (hn : HasName n r) (hi : Inside (n ++ r ++ 63 :: sp3)) (hs3 : Spaces sp3) :
      TagText .pi (60 :: sp ++ (63 :: sp2 ++ (n ++ r ++ 63 :: sp3)) ++ [62]) n r
  | decl {sp sp2 n r : List UInt8} (hs : Spaces sp) (hs2 : Spaces sp2) (hn : HasName n r) (hi : Inside (n ++ r)) :
      TagText .decl (60 :: sp ++ (33 :: sp2 ++ (n ++ r)) ++ [62]) n r
  | comment {sp sp2 b : List UInt8} (hs : Spaces sp) (hs2 : Spaces sp2) (hb : ∀ p q, b ++ [45, 45] ≠ p ++ [45, 45, 62] ++ q) :
      TagText .comment (60 :: sp ++ (33 :: sp2 ++ ([45, 45] ++ b)) ++ [45, 45, 62]) [] b
  | cdata {sp sp2 b : List UInt8} (hs : Spaces sp) (hs2 : Spaces sp2) (hb : ∀ p q, b ++ [93, 93] ≠ p ++ [93, 93, 62] ++ q) :
      TagText .cdata (60 :: sp ++ (33 :: sp2 ++ ([91, 67, 68, 65, 84, 65, 91] ++ b)) ++ [93, 93, 62]) [] b

/-- The names of attributes are not empty and differ in more than case. -/
def AttrsOk (as : Attrs) : Prop := (∀ a ∈ as, a.1 ≠ []) ∧ as.Pairwise fun a b => ¬ Alike true a.1 b.1

/-- The attributes a tag has if `r` follows its name: their names are as required, and if `r` is the text of attributes, in any
layout XML allows, it is these.  (Texts that XML does not allow, like values without quotes, are also accepted.) -/
def AttrsAre (fl : RFlags) (r : List UInt8) (as : Attrs) : Prop := AttrsOk as ∧ ∀ as', WfAttrs fl.rawAttrs r as' → as = as'

/-- `v` is what the text `t` without outer white space stands for. -/
def TextIs (fl : RFlags) (t v : List UInt8) : Prop := if fl.rawText then v = t else ∀ s, Denotes TextRef t s → (0 : UInt8) ∉ s → v = s

mutual
/-- One node and its text. -/
inductive Item (fl : RFlags) : List UInt8 → Node → Prop
  | elem {u n r b u' n' r' : List UInt8} {as : Attrs} {ks : List Node} (h1 : TagText .start u n r) (ha : AttrsAre fl r as) (hb : Content fl b ks)
      (h2 : TagText .endTag u' n' r') (he : Alike fl.tagCasecmp n' n) : Item fl (u ++ b ++ u') (.elem n as ks)
  | empty {u n r : List UInt8} {as : Attrs} (h : TagText .empty u n r) (ha : AttrsAre fl r as) : Item fl u (.elem n as [])
  | pi {u n r : List UInt8} {as : Attrs} (h : TagText .pi u n r) (ha : AttrsAre fl r as) : Item fl u (.pi n as [])
  | decl {u n r d : List UInt8} (h : TagText .decl u n r) : Item fl u (.decl n d)
  | comment {u a v b : List UInt8} (h : TagText .comment u [] (a ++ v ++ b)) (ha : Spaces a) (hb : Spaces b) (hv : Trimmed v) : Item fl u (.comment v)
  | cdata {u b v : List UInt8} (h : TagText .cdata u [] b) (hv : fl.rawText = false → TextIs fl b v) : Item fl u (.text v)
  | text {a t b v : List UInt8} (ha : Spaces a) (hb : Spaces b) (ht : Trimmed t) (h0 : t ≠ []) (h : (60 : UInt8) ∉ a ++ t ++ b) (hv : TextIs fl t v) :
      Item fl (a ++ t ++ b) (.text v)

/-- A sequence of nodes and its text. -/
inductive Content (fl : RFlags) : List UInt8 → List Node → Prop
  | nil : Content fl [] []
  | space {t : List UInt8} {ks : List Node} {c : UInt8} (h : Content fl t ks) (hc : Space c) : Content fl (t ++ [c]) ks
  | skip {t u b : List UInt8} {ks : List Node} (h : Content fl t ks) (hi : fl.ignoreComments = true) (hu : TagText .comment u [] b) : Content fl (t ++ u) ks
  | item {t u : List UInt8} {ks : List Node} {n : Node} (h : Content fl t ks) (hu : Item fl u n) : Content fl (t ++ u) (ks ++ [n])
end

/-! ### Tags -/

theorem takeWhile_spaces (s : List UInt8) : ∃ sp, s = sp ++ s.dropWhile isSpace ∧ Spaces sp :=
  ⟨s.takeWhile isSpace, List.takeWhile_append_dropWhile.symm, (spaces_iff _).2 fun _ hc => (List.all_eq_true.1 List.all_takeWhile) _ hc⟩

/-- What a search outside quotes passes over is the inside of a tag. -/
theorem findUnquoted_inside (s : List UInt8) : ∀ (q : UInt8) (i : Nat), (q = 0 ∨ q = 34 ∨ q = 39) → findUnquoted 62 s q = some i →
    s[i]? = some 62 ∧ (q = 0 → Inside (s.take i)) ∧ (q ≠ 0 → ∃ a b, s.take i = a ++ q :: b ∧ q ∉ a ∧ Inside b) := by
  induction s with
  | nil => intro q i _ h; simp [findUnquoted] at h
  | cons c s ih =>
    intro q i hq h
    rw [findUnquoted] at h
    by_cases hc : c = 39 ∨ c = 34
    · rw [if_pos hc, Option.map_eq_some_iff] at h
      obtain ⟨j, hj, rfl⟩ := h
      by_cases hq0 : q = 0
      · subst hq0
        simp only [ne_eq, not_true, if_false] at hj
        obtain ⟨h1, _, h3⟩ := ih c j (Or.inr hc.symm) hj
        refine ⟨by simpa using h1, fun _ => ?_, fun h => absurd rfl h⟩
        obtain ⟨a, b, e, ha, hb⟩ := h3 (by rcases hc with rfl | rfl <;> decide)
        rw [List.take_succ_cons, e]
        exact .quoted hc.symm ha hb
      · simp only [ne_eq, hq0, not_false_eq_true, if_true] at hj
        by_cases hcq : c = q
        · subst hcq
          simp only [if_true] at hj
          obtain ⟨h1, h2, _⟩ := ih 0 j (Or.inl rfl) hj
          refine ⟨by simpa using h1, fun h => absurd h hq0, fun _ => ⟨[], s.take j, by simp, by simp, h2 rfl⟩⟩
        · simp only [hcq, if_false] at hj
          obtain ⟨h1, _, h3⟩ := ih q j hq hj
          obtain ⟨a, b, e, ha, hb⟩ := h3 hq0
          exact ⟨by simpa using h1, fun h => absurd h hq0, fun _ => ⟨c :: a, b, by simp [e], by simp [ha, Ne.symm hcq], hb⟩⟩
    · rw [if_neg hc] at h
      have h39 : c ≠ 39 := fun e => hc (Or.inl e)
      have h34 : c ≠ 34 := fun e => hc (Or.inr e)
      by_cases hm : c = 62 ∧ q = 0
      · rw [if_pos hm] at h
        injection h with h; subst h
        exact ⟨by simp [hm.1], fun _ => by simpa using Inside.nil, fun h => absurd hm.2 h⟩
      · rw [if_neg hm, Option.map_eq_some_iff] at h
        obtain ⟨j, hj, rfl⟩ := h
        obtain ⟨h1, h2, h3⟩ := ih q j hq hj
        refine ⟨by simpa using h1, fun h => ?_, fun h => ?_⟩
        · rw [List.take_succ_cons]
          exact .plain h34 h39 (fun e => hm ⟨e, h⟩) (h2 h)
        · obtain ⟨a, b, e, ha, hb⟩ := h3 h
          exact ⟨c :: a, b, by simp [e], by
            simp only [List.mem_cons, not_or]
            refine ⟨?_, ha⟩
            rcases hq with h' | h' | h'
            · exact absurd h' h
            · rw [h']; exact Ne.symm h34
            · rw [h']; exact Ne.symm h39, hb⟩

theorem findReverse_spec (ch : UInt8) (s : List UInt8) (hch : isSpace ch = false) :
    match findReverse ch s with
    | none => ∀ p t, s = p ++ ch :: t → ¬ Spaces t
    | some j => ∃ sp, s = s.take j ++ ch :: sp ∧ Spaces sp := by
  unfold findReverse
  obtain ⟨sp, e, hsp⟩ := takeWhile_spaces s.reverse
  have e' : s = (s.reverse.dropWhile isSpace).reverse ++ sp.reverse := by
    rw [← List.reverse_append, ← e, List.reverse_reverse]
  have hfst : ∀ c r, s.reverse.dropWhile isSpace = c :: r → isSpace c = false := by
    intro c r h
    have h1 := List.head_dropWhile_not isSpace (l := s.reverse) (by rw [h]; simp)
    simpa [h] using h1
  have hpt : ∀ p t, s = p ++ ch :: t → Spaces t → s.reverse.dropWhile isSpace = ch :: p.reverse := by
    intro p t e2 ht
    rw [e2, List.reverse_append, List.reverse_cons, List.append_assoc, dropWhile_spaces _ _ (fun c hc => (space_iff c).2 (ht c (List.mem_reverse.1 hc)))]
    simp [List.dropWhile_cons, hch]
  have hspr : Spaces sp.reverse := fun c hc => hsp c (List.mem_reverse.1 hc)
  revert e' hfst hpt
  cases s.reverse.dropWhile isSpace with
  | nil =>
    intro e' _ hpt
    simp only
    intro p t e2 ht
    have := hpt p t e2 ht
    simp at this
  | cons c r =>
    intro e' hfst hpt
    simp only
    by_cases hc : c = ch
    · rw [if_pos hc]
      refine ⟨sp.reverse, ?_, hspr⟩
      rw [List.reverse_cons, List.append_assoc] at e'
      have : s.take r.length = r.reverse := by
        rw [e']
        have := List.take_left (l₁ := r.reverse) (l₂ := [c] ++ sp.reverse)
        rw [List.length_reverse] at this
        exact this
      rw [this, ← hc]; exact e'
    · rw [if_neg hc]
      intro p t e2 ht
      have := hpt p t e2 ht
      exact hc (List.cons.inj this).1

theorem tagPos_spec (ty : Tag) (d : List UInt8) : ∃ o, tagPos ty d = .ok o ∧ ∀ i n, o = some (i, n) →
    match ty with
    | .comment => n = 3 ∧ d = d.take i ++ [45, 45, 62] ++ d.drop (i + n) ∧ ∀ p q, d.take i ++ [45, 45] ≠ p ++ [45, 45, 62] ++ q
    | .cdata => n = 3 ∧ d = d.take i ++ [93, 93, 62] ++ d.drop (i + n) ∧ ∀ p q, d.take i ++ [93, 93] ≠ p ++ [93, 93, 62] ++ q
    | _ => n = 1 ∧ d = d.take i ++ [62] ++ d.drop (i + n) ∧ Inside (d.take i) := by
  have hmem : ∀ x y z : UInt8, ∃ r, Mem.mem d [x, y, z] = some r ∧ ∀ i, r = some i →
      d = d.take i ++ [x, y, z] ++ d.drop (i + 3) ∧ ∀ p q, d.take i ++ [x, y] ≠ p ++ [x, y, z] ++ q := by
    intro x y z
    obtain ⟨r, e, h⟩ := Mem.mem_correct d [x, y, z]
    refine ⟨r, e, fun i hr => ?_⟩
    subst hr
    obtain ⟨⟨p, q, e1, hp⟩, hmin⟩ := h
    have ht : d.take i = p := by rw [e1, ← hp, List.append_assoc, List.take_left]
    have hdr : d.drop (i + 3) = q := by
      rw [e1, ← hp]
      have := List.drop_left (l₁ := p ++ [x, y, z]) (l₂ := q)
      simpa using this
    refine ⟨by rw [ht, hdr]; exact e1, ?_⟩
    intro p' q' e2
    have hl := congrArg List.length e2
    rw [ht] at e2 hl
    have := hmin p' (q' ++ z :: q) (by
      rw [e1]
      have : p ++ [x, y, z] ++ q = p ++ [x, y] ++ z :: q := by simp
      rw [this, e2]; simp)
    simp at hl; omega
  have hdef : ∃ o, (Res.ok ((findUnquoted 62 d 0).map (·, 1)) : Res (Option (Nat × Nat))) = .ok o ∧ ∀ i n, o = some (i, n) →
      n = 1 ∧ d = d.take i ++ [62] ++ d.drop (i + n) ∧ Inside (d.take i) := by
    refine ⟨_, rfl, fun i n h => ?_⟩
    rw [Option.map_eq_some_iff] at h
    obtain ⟨j, hj, e⟩ := h
    simp only [Prod.mk.injEq] at e
    obtain ⟨rfl, rfl⟩ := e
    obtain ⟨h1, h2, _⟩ := findUnquoted_inside d 0 j (Or.inl rfl) hj
    refine ⟨rfl, ?_, h2 rfl⟩
    obtain ⟨hlt, hg⟩ := List.getElem?_eq_some_iff.1 h1
    have := List.take_append_drop j d
    rw [List.drop_eq_getElem_cons hlt, hg] at this
    simpa using this.symm
  cases ty with
  | comment =>
    obtain ⟨r, e, h⟩ := hmem 45 45 62
    refine ⟨r.map (·, 3), by simp only [tagPos, e], fun i n ho => ?_⟩
    rw [Option.map_eq_some_iff] at ho
    obtain ⟨j, hj, e2⟩ := ho
    simp only [Prod.mk.injEq] at e2
    obtain ⟨rfl, rfl⟩ := e2
    exact ⟨rfl, h _ hj⟩
  | cdata =>
    obtain ⟨r, e, h⟩ := hmem 93 93 62
    refine ⟨r.map (·, 3), by simp only [tagPos, e], fun i n ho => ?_⟩
    rw [Option.map_eq_some_iff] at ho
    obtain ⟨j, hj, e2⟩ := ho
    simp only [Prod.mk.injEq] at e2
    obtain ⟨rfl, rfl⟩ := e2
    exact ⟨rfl, h _ hj⟩
  | _ => exact hdef

/-- Reading a tag stays inside the data. -/
theorem tagInfo_no_ub (c : UInt8) (r : List UInt8) : tagInfo (c :: r) ≠ .ub := by
  have h1 : ∀ p, tagType p ≠ .ub := by
    intro p; cases p with
    | nil => simp [tagType]
    | cons c r => simp only [tagType]; repeat' split
                  all_goals simp
  have h2 : ∀ ty d, tagEnd ty d ≠ .ub := by
    intro ty d
    obtain ⟨o, e, _⟩ := tagPos_spec ty d
    unfold tagEnd
    rw [e]
    cases o with
    | none => simp [Res.bind]
    | some y => obtain ⟨i, n⟩ := y; simp only [Res.bind]; repeat' split
                all_goals simp
  simp only [tagInfo]
  split
  · simp
  · cases et : tagType (r.dropWhile isSpace) with
    | ub => exact absurd et (h1 _)
    | err _ => simp [Res.bind]
    | ok t =>
      simp only [Res.bind]
      cases ee : tagEnd t.1 t.2 with
      | ub => exact absurd ee (h2 _ _)
      | err _ => simp
      | ok e => simp only; repeat' split
                all_goals simp

theorem hasName_of (b : List UInt8) (h0 : (0 : UInt8) ∉ b) (hn : (b.takeWhile fun c => !isSpace c) ≠ []) :
    HasName (cstr (b.takeWhile fun c => !isSpace c)) (b.drop (cstr (b.takeWhile fun c => !isSpace c)).length) ∧
      b = cstr (b.takeWhile fun c => !isSpace c) ++ b.drop (cstr (b.takeWhile fun c => !isSpace c)).length := by
  have hc : cstr (b.takeWhile fun c => !isSpace c) = b.takeWhile fun c => !isSpace c := cstr_eq fun h => h0 ((List.takeWhile_sublist _).subset h)
  rw [hc]
  have e : b.drop (b.takeWhile fun c => !isSpace c).length = b.dropWhile fun c => !isSpace c := by
    have h := List.takeWhile_append_dropWhile (p := fun c => !isSpace c) (l := b)
    have h2 := List.drop_left (l₁ := b.takeWhile fun c => !isSpace c) (l₂ := b.dropWhile fun c => !isSpace c)
    rw [h] at h2; exact h2
  rw [e]
  refine ⟨⟨hn, fun c hc => ?_, fun c t h => ?_⟩, List.takeWhile_append_dropWhile.symm⟩
  · have := List.all_eq_true.1 List.all_takeWhile c hc
    rw [← space_iff]; simpa using this
  · have h1 := List.head_dropWhile_not (fun c => !isSpace c) (l := b) (by rw [h]; simp)
    rw [← space_iff]
    simpa [h] using h1

/-- The result of finding a tag, apart from the split into name and rest. -/
theorem tagInfo_cases {d : List UInt8} {i : Info} (h : tagInfo d = .ok i) : ∃ sp p t e, d = 60 :: (sp ++ p) ∧ Spaces sp ∧ tagType p = .ok t ∧ tagEnd t.1 t.2 = .ok e ∧
    (∀ c r, p = c :: r → ¬ Space c) ∧
    ((e.1 = .cdata ∨ e.1 = .comment) ∧ i = ⟨e.1, [], t.2, e.2.1, e.2.2⟩ ∨
      ¬ (e.1 = .cdata ∨ e.1 = .comment) ∧ (e.2.1.takeWhile fun c => !isSpace c) ≠ [] ∧
        i = ⟨e.1, cstr (e.2.1.takeWhile fun c => !isSpace c), t.2.drop (cstr (e.2.1.takeWhile fun c => !isSpace c)).length,
          e.2.1.drop (cstr (e.2.1.takeWhile fun c => !isSpace c)).length, e.2.2⟩) := by
  cases d with
  | nil => simp [tagInfo] at h
  | cons c r =>
    simp only [tagInfo] at h
    by_cases hc : c ≠ 60
    · rw [if_pos hc] at h; simp at h
    · rw [if_neg hc] at h
      obtain ⟨sp, e1, hsp⟩ := takeWhile_spaces r
      have hfst : ∀ c' r', r.dropWhile isSpace = c' :: r' → ¬ Space c' := by
        intro c' r' h
        have h1 := List.head_dropWhile_not isSpace (l := r) (by rw [h]; simp)
        rw [← space_iff]; simpa [h] using h1
      cases et : tagType (r.dropWhile isSpace) with
      | ub => simp [et, Res.bind] at h
      | err _ => simp [et, Res.bind] at h
      | ok t =>
        simp only [et, Res.bind] at h
        cases ee : tagEnd t.1 t.2 with
        | ub => simp [ee] at h
        | err _ => simp [ee] at h
        | ok e =>
          simp only [ee] at h
          refine ⟨sp, _, t, e, ?_, hsp, et, ee, hfst, ?_⟩
          · have : c = 60 := Classical.byContradiction hc
            rw [this, ← e1]
          · by_cases hk : e.1 = .cdata ∨ e.1 = .comment
            · rw [if_pos hk] at h
              injection h with h
              exact Or.inl ⟨hk, h.symm⟩
            · rw [if_neg hk] at h
              by_cases hz : (e.2.1.takeWhile fun c => !isSpace c) = []
              · rw [if_pos hz] at h; simp at h
              · rw [if_neg hz] at h
                injection h with h
                exact Or.inr ⟨hk, hz, h.symm⟩

/-- What the kind of a tag says about its text. -/
theorem tagType_spec {p : List UInt8} {t : Tag × List UInt8} (h : tagType p = .ok t) : ∃ sp, Spaces sp ∧
    match t.1 with
    | .endTag => p = 47 :: sp ++ t.2
    | .pi => p = 63 :: sp ++ t.2
    | .comment => p = 33 :: sp ++ ([45, 45] ++ t.2)
    | .cdata => p = 33 :: sp ++ ([91, 67, 68, 65, 84, 65, 91] ++ t.2)
    | .decl => p = 33 :: sp ++ t.2
    | .start => p = t.2 ∧ ∀ c r, p = c :: r → c ≠ 47 ∧ c ≠ 63 ∧ c ≠ 33 ∧ c ≠ 60
    | .empty => False := by
  cases p with
  | nil => simp [tagType] at h
  | cons c r =>
    obtain ⟨sp, e1, hsp⟩ := takeWhile_spaces r
    simp only [tagType] at h
    by_cases h47 : c = 47
    · rw [if_pos h47] at h
      injection h with h; subst h
      exact ⟨sp, hsp, by rw [h47]; simp [← e1]⟩
    rw [if_neg h47] at h
    by_cases h63 : c = 63
    · rw [if_pos h63] at h
      injection h with h; subst h
      exact ⟨sp, hsp, by rw [h63]; simp [← e1]⟩
    rw [if_neg h63] at h
    by_cases h60 : c = 60
    · rw [if_pos h60] at h; simp at h
    rw [if_neg h60] at h
    by_cases h33 : c = 33
    · rw [if_pos h33] at h
      revert e1 h
      generalize r.dropWhile isSpace = r'
      intro e1 h
      by_cases h0 : r' = []
      · rw [if_pos h0] at h; simp at h
      rw [if_neg h0] at h
      by_cases h2 : r'.length ≥ 2 ∧ r'.take 2 = [45, 45]
      · rw [if_pos h2] at h
        injection h with h; subst h
        refine ⟨sp, hsp, ?_⟩
        simp only
        rw [← h2.2, List.take_append_drop, h33, e1]; rfl
      rw [if_neg h2] at h
      by_cases h7 : r'.length ≥ 7 ∧ r'.take 7 = [91, 67, 68, 65, 84, 65, 91]
      · rw [if_pos h7] at h
        injection h with h; subst h
        refine ⟨sp, hsp, ?_⟩
        simp only
        rw [← h7.2, List.take_append_drop, h33, e1]; rfl
      rw [if_neg h7] at h
      injection h with h; subst h
      exact ⟨sp, hsp, by simp only; rw [h33, e1]; rfl⟩
    · rw [if_neg h33] at h
      injection h with h; subst h
      refine ⟨[], by simp [Spaces], rfl, ?_⟩
      intro c' r' e
      rw [← (List.cons.inj e).1]
      exact ⟨h47, h63, h33, h60⟩

/-- A tag that is found is one. -/
theorem tagInfo_spec {d : List UInt8} {i : Info} (h0 : (0 : UInt8) ∉ d) (h : tagInfo d = .ok i) : ∃ u, d = u ++ i.rest ∧ TagText i.ty u i.name i.body := by
  obtain ⟨sp, p, t, e, ed, hsp, ht, he, hp, hi⟩ := tagInfo_cases h
  obtain ⟨sp2, hsp2, ht⟩ := tagType_spec ht
  obtain ⟨ty, d2⟩ := t
  have hsub : ∀ c ∈ d2, c ∈ d := by
    intro c hc
    rw [ed]
    have : c ∈ p := by
      revert ht
      cases ty <;> simp only <;> intro ht
      case start => rw [ht.1]; exact hc
      case empty => exact ht.elim
      all_goals rw [ht]; simp [hc]
    simp [this]
  unfold tagEnd at he
  obtain ⟨o, eo, ho⟩ := tagPos_spec ty d2
  simp only [eo, Res.bind] at he
  cases o with
  | none => simp at he
  | some y =>
    obtain ⟨k, n⟩ := y
    simp only at he
    have ho := ho k n rfl
    have hb0 : ∀ j, (0 : UInt8) ∉ d2.take j := fun j hc => h0 (hsub _ (List.mem_of_mem_take hc))
    cases ty with
    | comment =>
      simp only at he ho ht
      injection he with he; subst he
      rcases hi with ⟨_, rfl⟩ | ⟨hk, _⟩
      · obtain ⟨rfl, e2, hb⟩ := ho
        refine ⟨_, ?_, .comment hsp hsp2 hb⟩
        rw [ed, ht]
        simp only [List.cons_append, List.append_assoc] at e2 ⊢
        rw [← e2]
      · exact absurd (Or.inr rfl) hk
    | cdata =>
      simp only at he ho ht
      injection he with he; subst he
      rcases hi with ⟨_, rfl⟩ | ⟨hk, _⟩
      · obtain ⟨rfl, e2, hb⟩ := ho
        refine ⟨_, ?_, .cdata hsp hsp2 hb⟩
        rw [ed, ht]
        simp only [List.cons_append, List.append_assoc] at e2 ⊢
        rw [← e2]
      · exact absurd (Or.inl rfl) hk
    | empty => exact ht.elim
    | decl =>
      simp only at he ho ht
      injection he with he; subst he
      rcases hi with ⟨hk, _⟩ | ⟨_, hz, rfl⟩
      · simp at hk
      · obtain ⟨rfl, e2, hin⟩ := ho
        obtain ⟨hn, eb⟩ := hasName_of _ (hb0 k) hz
        refine ⟨_, ?_, .decl hsp hsp2 hn (by rw [← eb]; exact hin)⟩
        rw [ed, ht, ← eb]
        simp only [List.cons_append, List.append_assoc] at e2 ⊢
        rw [← e2]
    | endTag =>
      simp only at he ho ht
      injection he with he; subst he
      rcases hi with ⟨hk, _⟩ | ⟨_, hz, rfl⟩
      · simp at hk
      · obtain ⟨rfl, e2, hin⟩ := ho
        obtain ⟨hn, eb⟩ := hasName_of _ (hb0 k) hz
        refine ⟨_, ?_, .endTag hsp hsp2 hn (by rw [← eb]; exact hin)⟩
        rw [ed, ht, ← eb]
        simp only [List.cons_append, List.append_assoc] at e2 ⊢
        rw [← e2]
    | pi =>
      simp only at he ho ht
      obtain ⟨rfl, e2, hin⟩ := ho
      have hr := findReverse_spec 63 (d2.take k) (by decide)
      revert he hr
      cases findReverse 63 (d2.take k) with
      | none => intro he; simp at he
      | some j =>
        simp only
        intro he hr
        injection he with he; subst he
        rcases hi with ⟨hk, _⟩ | ⟨_, hz, rfl⟩
        · simp at hk
        · obtain ⟨sp3, e3, hsp3⟩ := hr
          have hjk : (d2.take k).take j = d2.take j := by
            rw [List.take_take]
            have hl := congrArg List.length e3
            simp at hl
            congr 1; omega
          rw [hjk] at e3
          obtain ⟨hn, eb⟩ := hasName_of _ (hb0 j) hz
          refine ⟨_, ?_, .pi hsp hsp2 hn (by rw [← eb, ← e3]; exact hin) hsp3⟩
          rw [ed, ht, ← eb, ← e3]
          simp only [List.cons_append, List.append_assoc] at e2 ⊢
          rw [← e2]
    | start =>
      simp only at he ho ht
      obtain ⟨rfl, e2, hin⟩ := ho
      have hr := findReverse_spec 47 (d2.take k) (by decide)
      have hfirst : ∀ j, (d2.take j).takeWhile (fun c => !isSpace c) ≠ [] → ∀ c r, cstr ((d2.take j).takeWhile fun c => !isSpace c) = c :: r →
          c ≠ 47 ∧ c ≠ 63 ∧ c ≠ 33 ∧ c ≠ 60 := by
        intro j hz c r e4
        obtain ⟨hn, eb⟩ := hasName_of _ (hb0 j) hz
        rw [e4] at eb
        have hd2 : d2 = c :: (r ++ (d2.take j).drop (c :: r).length ++ d2.drop j) := by
          have h5 := congrArg (· ++ d2.drop j) eb
          simp only [List.take_append_drop] at h5
          rw [List.cons_append, List.cons_append] at h5
          exact h5
        exact ht.2 c _ (by rw [ht.1]; exact hd2)
      revert he hr
      cases findReverse 47 (d2.take k) with
      | none =>
        simp only
        intro he hr
        injection he with he; subst he
        rcases hi with ⟨hk, _⟩ | ⟨_, hz, rfl⟩
        · simp at hk
        · obtain ⟨hn, eb⟩ := hasName_of _ (hb0 k) hz
          refine ⟨_, ?_, .start hsp hn (by rw [← eb]; exact hin) (hfirst k hz) (by rw [← eb]; exact hr)⟩
          rw [ed, ht.1, ← eb]
          simp only [List.cons_append, List.append_assoc] at e2 ⊢
          rw [← e2]
      | some j =>
        simp only
        intro he hr
        injection he with he; subst he
        rcases hi with ⟨hk, _⟩ | ⟨_, hz, rfl⟩
        · simp at hk
        · obtain ⟨sp3, e3, hsp3⟩ := hr
          have hjk : (d2.take k).take j = d2.take j := by
            rw [List.take_take]
            have hl := congrArg List.length e3
            simp at hl
            congr 1; omega
          rw [hjk] at e3
          obtain ⟨hn, eb⟩ := hasName_of _ (hb0 j) hz
          refine ⟨_, ?_, .empty hsp hn (by rw [← eb, ← e3]; exact hin) hsp3 (hfirst j hz)⟩
          rw [ed, ht.1, ← eb, ← e3]
          simp only [List.cons_append, List.append_assoc] at e2 ⊢
          rw [← e2]

/-! ### Attributes -/

theorem insertAttr_ok {as as' : Attrs} {k : List UInt8} {v : Option (List UInt8)} (hl : (∀ a ∈ as, a.1.length < Buf.W) ∧ k.length < Buf.W) (h : AttrsOk as)
    (e : insertAttr as k v = some as') : AttrsOk as' ∧ ∀ a ∈ as', a.1.length < Buf.W := by
  cases v with
  | none => simp [insertAttr] at e
  | some v =>
    simp only [insertAttr] at e
    by_cases hk : k = []
    · rw [if_pos hk] at e; simp at e
    rw [if_neg hk] at e
    by_cases ha : (as.any fun a => eq true a.1 k) = true
    · rw [if_pos ha] at e; simp at e
    rw [if_neg ha] at e
    injection e with e; subst e
    refine ⟨⟨?_, ?_⟩, ?_⟩
    · intro a hm
      rcases List.mem_append.1 hm with hm | hm
      · exact h.1 a hm
      · rw [List.mem_singleton] at hm; subst hm; exact hk
    · rw [List.pairwise_append]
      refine ⟨h.2, by simp, ?_⟩
      intro a hm b hb
      rw [List.mem_singleton] at hb; subst hb
      intro hal
      apply ha
      rw [List.any_eq_true]
      exact ⟨a, hm, (Str.eq_iff true _ _ (hl.1 a hm) hl.2).2 hal⟩
    · intro a hm
      rcases List.mem_append.1 hm with hm | hm
      · exact hl.1 a hm
      · rw [List.mem_singleton] at hm; subst hm; exact hl.2

theorem explodeAt_sub (ch : UInt8) : ∀ (n : Nat) (s p : List UInt8), p ∈ explodeAt ch n s → p.length ≤ s.length := by
  intro n
  induction n with
  | zero => intro s p h; simp [explodeAt] at h; simp [h]
  | succ n ih =>
    intro s p h
    rw [explodeAt] at h
    split at h
    · simp at h; simp [h]
    · rcases List.mem_cons.1 h with h | h
      · subst h; simp; omega
      · have := ih _ _ h; simp at this; omega

theorem unquoteVal_len (s : List UInt8) : (unquoteVal s).length ≤ s.length := by
  unfold unquoteVal
  split
  · simp
  · split
    · simp
    · split <;> simp
      omega

theorem attrsLoop_ok (fl : RFlags) (l : List (List UInt8)) : ∀ (as as' : Attrs), (∀ p ∈ l, p.length < Buf.W) → (∀ a ∈ as, a.1.length < Buf.W) → AttrsOk as →
    attrsLoop fl as l = some as' → AttrsOk as' := by
  induction l with
  | nil => intro as as' _ _ h e; simp [attrsLoop] at e; subst e; exact h
  | cons p l ih =>
    intro as as' hl ha h e
    simp only [attrsLoop, Option.bind_eq_some_iff] at e
    obtain ⟨a1, e1, e2⟩ := e
    have hk : (unquoteVal ((explodeUnq 61 p).headD [])).length < Buf.W := by
      have h1 := unquoteVal_len ((explodeUnq 61 p).headD [])
      have h2 : ((explodeUnq 61 p).headD []).length ≤ p.length := by
        cases h3 : explodeUnq 61 p with
        | nil => simp
        | cons x y => exact explodeAt_sub 61 p.length p x (by unfold explodeUnq at h3; rw [h3]; simp)
      have := hl p (by simp)
      omega
    obtain ⟨h3, h4⟩ := insertAttr_ok ⟨ha, hk⟩ h e1
    exact ih a1 as' (fun q hq => hl q (by simp [hq])) h4 h3 e2

theorem stripLoop_len : ∀ (s : List UInt8) (q : UInt8) (req : Int), (stripLoop s q req).length ≤ s.length + (if req = 1 then 1 else 0) := by
  intro s
  induction s with
  | nil => intro q req; simp [stripLoop]
  | cons c s ih =>
    intro q req
    rw [stripLoop]
    split
    · have := ih (if c = q then 0 else q) req
      rw [List.length_cons, List.length_cons]; omega
    · split
      · have := ih c 0
        simp at this
        split <;> simp <;> omega
      · split
        · have := ih q (if req ≠ -1 then 1 else req)
          have hle : ∀ x : Int, (if x = 1 then 1 else 0 : Nat) ≤ 1 := by intro x; split <;> simp
          have h2 := hle (if req ≠ -1 then 1 else req)
          rw [List.length_cons]; omega
        · split
          · have := ih q (-1)
            simp at this
            simp; omega
          · have := ih q 0
            simp at this
            split <;> simp <;> omega

theorem readAttrs_ok {fl : RFlags} {d : List UInt8} {as : Attrs} (hd : d.length < Buf.W) (h : readAttrs fl d = some as) : AttrsOk as := by
  have hnil : AttrsOk [] := ⟨by simp, by simp⟩
  simp only [readAttrs] at h
  cases e : strip d with
  | none => rw [e] at h; simp at h; subst h; exact hnil
  | some s =>
    rw [e] at h
    simp only at h
    refine attrsLoop_ok fl _ [] as ?_ (by simp) hnil h
    intro p hp
    have h1 := explodeAt_sub _ _ _ _ hp
    have h2 : (cstr s).length ≤ s.length := (List.takeWhile_sublist _).length_le
    have h3 : s.length ≤ d.length := by
      simp only [strip] at e
      split at e
      · simp at e
      · injection e with e
        subst e
        have h4 := stripLoop_len ((d.dropWhile isSpace).reverse.dropWhile isSpace).reverse 0 0
        simp only [Int.zero_ne_one, if_false, List.length_reverse] at h4
        have h5 : ((d.dropWhile isSpace).reverse.dropWhile isSpace).length ≤ (d.dropWhile isSpace).reverse.length := (List.dropWhile_sublist _).length_le
        have h6 : (d.dropWhile isSpace).length ≤ d.length := (List.dropWhile_sublist _).length_le
        simp at h5; omega
    omega

theorem readAttrs_are {fl : RFlags} {d : List UInt8} {as : Attrs} (hd : d.length < Buf.W) (h0 : (0 : UInt8) ∉ d) (h : readAttrs fl d = some as) : AttrsAre fl d as :=
  ⟨readAttrs_ok hd h, fun _ hw => readAttrs_is hw h0 h⟩

/-! ### The loop -/

/-- The text read so far belongs to the nodes read so far and the start tags that are still open. -/
def Inv (fl : RFlags) (doc : List Node) : List Frame → List UInt8 → Prop
  | [], t => Content fl t doc.reverse
  | f :: fs, t => ∃ t0 u r t1, t = t0 ++ u ++ t1 ∧ Inv fl doc fs t0 ∧ TagText .start u f.name r ∧ f.name.length < Buf.W ∧ AttrsAre fl r f.attrs ∧ Content fl t1 f.kids.reverse

theorem Inv.map {fl : RFlags} {st : St} {t u : List UInt8} {n : Node} (hu : Item fl u n) (h : Inv fl st.doc st.frames t) :
    Inv fl (st.add n).doc (st.add n).frames (t ++ u) := by
  obtain ⟨fs, doc⟩ := st
  cases fs with
  | nil =>
    simp only [St.add, Inv] at *
    rw [List.reverse_cons]
    exact .item h hu
  | cons f fs =>
    simp only [St.add, Inv] at *
    obtain ⟨t0, u0, r, t1, e, h1, h2, h3, h4, h5⟩ := h
    refine ⟨t0, u0, r, t1 ++ u, by rw [e]; simp, h1, h2, h3, h4, ?_⟩
    rw [List.reverse_cons]
    exact .item h5 hu

theorem Inv.weaken {fl : RFlags} {doc : List Node} {fs : List Frame} {t u : List UInt8} (hc : ∀ s ks, Content fl s ks → Content fl (s ++ u) ks)
    (h : Inv fl doc fs t) : Inv fl doc fs (t ++ u) := by
  cases fs with
  | nil => exact hc _ _ h
  | cons f fs =>
    obtain ⟨t0, u0, r, t1, e, h1, h2, h3, h4, h5⟩ := h
    exact ⟨t0, u0, r, t1 ++ u, by rw [e]; simp, h1, h2, h3, h4, hc _ _ h5⟩

theorem TagText.len {ty : Tag} {u n r : List UInt8} (h : TagText ty u n r) : n.length + r.length < u.length := by
  cases h <;> simp <;> omega

theorem entDecode_is (fl : RFlags) (b after : List UInt8) (h : fl.rawText = false) : TextIs fl b (entDecode b after) := by
  unfold TextIs
  rw [h]
  simp only [Bool.false_eq_true, if_false]
  exact fun s hs h0 => entDecode_partial after hs h0

/-- One tag. -/
theorem tagProcess_inv {fl : RFlags} {st st' : St} {i : Info} {m t u : List UInt8} (hlen : u.length < Buf.W) (hu : TagText i.ty u i.name i.body)
    (h0 : (0 : UInt8) ∉ i.body) (h : Inv fl st.doc st.frames t) (e : tagProcess fl st i m = .ok st') : Inv fl st'.doc st'.frames (t ++ u) := by
  have hl := hu.len
  obtain ⟨ty, name, data, body, rest⟩ := i
  simp only at hu h0 hl
  cases ty with
  | decl =>
    simp only [tagProcess] at e
    repeat' split at e
    all_goals first | (simp at e; done) | skip
    injection e with e; subst e
    exact h.map (.decl hu)
  | pi =>
    simp only [tagProcess] at e
    split at e
    · simp at e
    · split at e
      · simp at e
      · rename_i as ha
        injection e with e; subst e
        exact h.map (.pi hu (readAttrs_are (by omega) h0 ha))
  | empty =>
    simp only [tagProcess] at e
    split at e
    · simp at e
    · split at e
      · simp at e
      · rename_i as ha
        injection e with e; subst e
        exact h.map (.empty hu (readAttrs_are (by omega) h0 ha))
  | start =>
    simp only [tagProcess] at e
    split at e
    · simp at e
    · split at e
      · simp at e
      · rename_i as ha
        injection e with e; subst e
        exact ⟨t, u, body, [], by simp, h, hu, by simp only; omega, readAttrs_are (by omega) h0 ha, .nil⟩
  | endTag =>
    simp only [tagProcess] at e
    obtain ⟨fs, doc⟩ := st
    cases fs with
    | nil => simp at e
    | cons f fs =>
      simp only at e
      split at e
      · simp at e
      · rename_i hne
        injection e with e; subst e
        obtain ⟨t0, u0, r, t1, et, h1, h2, h3, h4, h5⟩ := h
        have hal : Alike fl.tagCasecmp name f.name := (Str.eq_iff _ _ _ (by omega) h3).1 (by simpa using hne)
        have := Inv.map (st := ⟨fs, doc⟩) (.elem h2 h4 h5 hu hal) h1
        rw [et]
        simpa using this
  | cdata =>
    cases hu with
    | cdata hs hs2 hb =>
    simp only [tagProcess] at e
    by_cases hr : fl.rawText = true
    · rw [if_pos hr] at e
      split at e
      · simp at e
      · injection e with e; subst e
        exact h.map (.cdata (.cdata hs hs2 hb) (fun h => by rw [hr] at h; simp at h))
    · rw [if_neg hr] at e
      injection e with e; subst e
      exact h.map (.cdata (.cdata hs hs2 hb) (fun h => entDecode_is fl _ _ h))
  | comment =>
    cases hu with
    | comment hs hs2 hb =>
    simp only [tagProcess] at e
    by_cases hi : fl.ignoreComments = true
    · rw [if_pos hi] at e
      injection e with e; subst e
      exact h.weaken fun s ks hc => .skip hc hi (.comment hs hs2 hb)
    · rw [if_neg hi] at e
      injection e with e; subst e
      rw [cstr_eq h0]
      obtain ⟨a, b, eab, ha, hb', ht⟩ := Str.trim_correct body
      refine h.map (.comment (a := a) (b := b) ?_ ((spaces_iff a).2 ha) ((spaces_iff b).2 hb') ⟨?_, ?_⟩)
      · rw [← eab]; exact .comment hs hs2 hb
      · intro c t e; rw [← space_iff]; simp [ht.1 c t e]
      · intro c t e; rw [← space_iff]; simp [ht.2 c t e]

theorem dropWhile_first {l : List UInt8} {x : UInt8} {y : List UInt8} (h : l.dropWhile isSpace = x :: y) : isSpace x = false := by
  have h1 := List.head_dropWhile_not isSpace (l := l) (by rw [h]; simp)
  simpa [h] using h1

/-- One text. -/
theorem readText_inv {fl : RFlags} {st : St} {c : UInt8} {r t : List UInt8} (h0 : (0 : UInt8) ∉ c :: r) (hc : isSpace c = false) (h60 : c ≠ 60)
    (h : Inv fl st.doc st.frames t) : ∃ u, c :: r = u ++ (readText fl st (c :: r)).2 ∧
      Inv fl (readText fl st (c :: r)).1.doc (readText fl st (c :: r)).1.frames (t ++ u) := by
  refine ⟨(c :: r).takeWhile (· ≠ 60), ?_, ?_⟩
  · have h1 := List.takeWhile_append_dropWhile (p := fun x : UInt8 => decide (x ≠ 60)) (l := c :: r)
    have h2 := List.drop_left (l₁ := (c :: r).takeWhile fun x : UInt8 => decide (x ≠ 60)) (l₂ := (c :: r).dropWhile fun x : UInt8 => decide (x ≠ 60))
    rw [h1] at h2
    simp only [readText]
    rw [h2, h1]
  · simp only [readText]
    have hn : (60 : UInt8) ∉ (c :: r).takeWhile (· ≠ 60) := by
      intro hm
      have := List.all_eq_true.1 List.all_takeWhile _ hm
      simp at this
    have hz : (0 : UInt8) ∉ (c :: r).takeWhile (· ≠ 60) := fun hm => h0 ((List.takeWhile_sublist _).subset hm)
    have hcons : ∃ r', (c :: r).takeWhile (· ≠ 60) = c :: r' := by
      rw [List.takeWhile_cons]; simp [h60]
    revert hn hz hcons
    generalize (c :: r).takeWhile (· ≠ 60) = w
    rintro hn hz ⟨r', rfl⟩
    have hdw : (c :: r').dropWhile isSpace = c :: r' := by rw [List.dropWhile_cons, hc]; simp
    rw [hdw]
    obtain ⟨sp, e, hsp⟩ := takeWhile_spaces (c :: r').reverse
    have hfst : ∀ x y, (c :: r').reverse.dropWhile isSpace = x :: y → isSpace x = false := by
      intro x y h
      exact dropWhile_first h
    have hne : (c :: r').reverse.dropWhile isSpace ≠ [] := by
      intro he
      rw [he, List.append_nil] at e
      have : c ∈ sp := by rw [← e]; simp
      have := (space_iff c).2 (hsp c this)
      rw [hc] at this; simp at this
    revert e hfst hne
    generalize (c :: r').reverse.dropWhile isSpace = v
    intro e hfst hne
    have e' : c :: r' = v.reverse ++ sp.reverse := by rw [← List.reverse_append, ← e, List.reverse_reverse]
    have hv0 : (0 : UInt8) ∉ v.reverse := fun hm => hz (by rw [e']; simp [List.mem_reverse.1 hm])
    have hi : Item fl ([] ++ v.reverse ++ sp.reverse) (.text (if fl.rawText then cstr v.reverse else entDecode v.reverse [0])) := by
      refine .text (by simp [Spaces]) (fun x hx => hsp x (List.mem_reverse.1 hx)) ⟨?_, ?_⟩ (by simpa using hne) (by rw [List.nil_append, ← e']; exact hn) ?_
      · intro x y hxy
        rw [hxy] at e'
        rw [← (List.cons.inj e').1, ← space_iff]; simp [hc]
      · intro x y hxy
        have := congrArg List.reverse hxy
        rw [List.reverse_reverse, List.reverse_append] at this
        rw [← space_iff]; simp [hfst x _ this]
      · by_cases hr : fl.rawText = true
        · simp only [TextIs, hr, if_true]
          exact cstr_eq hv0
        · have := entDecode_is fl v.reverse [0] (by simpa using hr)
          rw [if_neg hr]; exact this
    rw [List.nil_append, ← e'] at hi
    exact h.map hi

/-- The children of the document read so far. -/
def Roots (st : St) : Prop :=
  (∀ n ∈ st.doc, n.isElem = false) ∨ st.frames = [] ∧ ∃ name as ks pre, st.doc = .elem name as ks :: pre ∧ ∀ n ∈ pre, n.isElem = false

theorem roots_add {st : St} (h : ∀ n ∈ st.doc, n.isElem = false) (n : Node) : Roots (st.add n) := by
  obtain ⟨fs, doc⟩ := st
  cases fs with
  | nil =>
    cases n with
    | elem a b c => exact Or.inr ⟨rfl, a, b, c, doc, rfl, h⟩
    | _ => exact Or.inl (by intro m hm; rcases List.mem_cons.1 hm with rfl | hm; rfl; exact h m hm)
  | cons f fs => exact Or.inl h

theorem tagProcess_roots {fl : RFlags} {st st' : St} {i : Info} {m : List UInt8} (h : ∀ n ∈ st.doc, n.isElem = false) (e : tagProcess fl st i m = .ok st') : Roots st' := by
  obtain ⟨ty, name, data, body, rest⟩ := i
  cases ty <;> simp only [tagProcess] at e
  case endTag =>
    obtain ⟨fs, doc⟩ := st
    cases fs with
    | nil => simp at e
    | cons f fs =>
      simp only at e
      split at e
      · simp at e
      · injection e with e; subst e
        exact roots_add (st := ⟨fs, doc⟩) h _
  case start =>
    repeat' split at e
    all_goals first | (simp at e; done) | skip
    injection e with e; subst e
    exact Or.inl h
  case comment =>
    split at e
    · injection e with e; subst e; exact Or.inl h
    · injection e with e; subst e; exact roots_add h _
  all_goals
    repeat' split at e
    all_goals first | (simp at e; done) | (injection e with e; subst e; exact roots_add h _)

theorem not_done {st : St} (h : Roots st) (hd : ¬ Done st) : ∀ n ∈ st.doc, n.isElem = false := by
  rcases h with h | ⟨h1, name, as, ks, pre, h2, h3⟩
  · exact h
  · exact absurd ⟨by rw [h1]; rfl, by rw [h2]; rfl⟩ hd

theorem readLoop_sound (fl : RFlags) (multi : Bool) (after : List UInt8) : ∀ (n : Nat) (st : St) (d t : List UInt8) (x : St × List UInt8), (0 : UInt8) ∉ d → d.length < Buf.W →
    Inv fl st.doc st.frames t → Roots st → readLoop fl multi after n st d = .ok x →
    ∃ u, d = u ++ x.2 ∧ Inv fl x.1.doc x.1.frames (t ++ u) ∧ Roots x.1 ∧ (multi = false → x.2 = []) := by
  intro n
  induction n with
  | zero => intro st d t x _ _ _ _ h; simp [readLoop] at h
  | succ n ih =>
    intro st d t x h0 hlen hinv hroots h
    cases d with
    | nil =>
      simp only [readLoop] at h
      injection h with h; subst h
      exact ⟨[], rfl, by simpa using hinv, hroots, fun _ => rfl⟩
    | cons c r =>
      rw [readLoop] at h
      by_cases hsp : isSpace c = true
      · rw [if_pos hsp] at h
        have h1 : Inv fl st.doc st.frames (t ++ [c]) := hinv.weaken fun s ks hc => .space hc ((space_iff c).1 hsp)
        obtain ⟨u, e, h2, h3, h4⟩ := ih st r (t ++ [c]) x (fun hm => h0 (by simp [hm])) (by simp at hlen; omega) h1 hroots h
        exact ⟨c :: u, by rw [e]; rfl, by simpa using h2, h3, h4⟩
      rw [if_neg hsp] at h
      by_cases hdone : st.frames.isEmpty = true ∧ st.doc.any Node.isElem = true
      · rw [if_pos hdone] at h
        cases multi with
        | false => simp at h
        | true =>
          simp only [if_true] at h
          injection h with h; subst h
          exact ⟨[], rfl, by simpa using hinv, hroots, fun h => by simp at h⟩
      rw [if_neg hdone] at h
      have hno := not_done hroots hdone
      by_cases h60 : c = 60
      · rw [if_pos h60] at h
        simp only [readTag] at h
        cases ei : tagInfo (c :: r) with
        | ub => simp [ei, Res.bind] at h
        | err _ => simp [ei, Res.bind] at h
        | ok i =>
          simp only [ei, Res.bind] at h
          cases ep : tagProcess fl st i (i.data ++ after) with
          | ub => simp [ep] at h
          | err _ => simp [ep] at h
          | ok s =>
            simp only [ep] at h
            obtain ⟨u, eu, hu⟩ := tagInfo_spec h0 ei
            have hul : u.length < Buf.W := by
              have := congrArg List.length eu
              rw [List.length_append] at this; omega
            have hb0 : (0 : UInt8) ∉ i.body := by
              intro hm
              apply h0
              rw [eu]
              have : (0 : UInt8) ∈ u := by
                revert hu hm
                obtain ⟨ty, name, data, body, rest⟩ := i
                intro hu hm
                simp only at hu hm
                cases hu <;> simp [hm]
              simp [this]
            have h1 := tagProcess_inv hul hu hb0 hinv ep
            have h2 := tagProcess_roots hno ep
            have h3 := congrArg List.length eu
            rw [List.length_append] at h3
            obtain ⟨w, ew, h4, h5, h6⟩ := ih s i.rest (t ++ u) x (fun hm => h0 (by rw [eu]; simp [hm])) (by omega) h1 h2 h
            exact ⟨u ++ w, by rw [eu, ew]; simp, by simpa using h4, h5, h6⟩
      · rw [if_neg h60] at h
        obtain ⟨u, eu, h1⟩ := readText_inv (fl := fl) (st := st) h0 (by simpa using hsp) h60 hinv
        have h3 := congrArg List.length eu
        rw [List.length_append] at h3
        have h2 : Roots (readText fl st (c :: r)).1 := roots_add hno _
        obtain ⟨w, ew, h4, h5, h6⟩ := ih _ _ (t ++ u) x (fun hm => h0 (by rw [eu]; simp [hm])) (by omega) h1 h2 h
        exact ⟨u ++ w, by rw [eu, List.append_assoc, ew], by simpa using h4, h5, h6⟩

/-! ### C74 -/

/-- **C74.** What is accepted is a document: a text in which every start tag has its end tag and elements are nested properly, that
belongs to the tree returned, with one element at the top, which comes last.  Unless the caller asks how much was read nothing is left. -/
theorem read_sound {fl : RFlags} {multi : Bool} {d after rest : List UInt8} {kids : List Node} (h0 : (0 : UInt8) ∉ d) (hlen : d.length < 2 ^ 64)
    (h : read fl multi d after = .ok (kids, rest)) : ∃ t, d = t ++ rest ∧ Content fl t kids ∧ (multi = false → rest = []) ∧
      ∃ pre name as ks, kids = pre ++ [.elem name as ks] ∧ ∀ n ∈ pre, ∀ a b c, n ≠ .elem a b c := by
  simp only [read] at h
  split at h
  · simp at h
  · cases e : readLoop fl multi after (d.length + 1) ⟨[], []⟩ d with
    | ub => simp [e, Res.bind] at h
    | err _ => simp [e, Res.bind] at h
    | ok x =>
      obtain ⟨u, eu, h1, h2, h3⟩ := readLoop_sound fl multi after _ ⟨[], []⟩ d [] x h0 hlen .nil (Or.inl (by simp)) e
      obtain ⟨⟨fs, doc⟩, r⟩ := x
      simp only [e, Res.bind] at h
      by_cases hf : fs ≠ []
      · rw [if_pos hf] at h; simp at h
      rw [if_neg hf] at h
      have hf : fs = [] := Classical.byContradiction hf
      subst hf
      by_cases ha : (doc.any Node.isElem) = false
      · rw [if_pos ha] at h; simp at h
      rw [if_neg ha] at h
      simp only [Res.ok.injEq, Prod.mk.injEq] at h
      obtain ⟨rfl, rfl⟩ := h
      refine ⟨u, eu, h1, h3, ?_⟩
      rcases h2 with h2 | ⟨_, name, as, ks, pre, h2, h4⟩
      · exfalso
        apply ha
        rw [List.any_eq_false]
        intro n hn
        simp only at h2
        simp [h2 n hn]
      · simp only at h2
        refine ⟨pre.reverse, name, as, ks, by rw [h2, List.reverse_cons], ?_⟩
        intro n hn a b c e5
        have := h4 n (List.mem_reverse.1 hn)
        rw [e5] at this
        simp [Node.isElem] at this

theorem tagProcess_no_ub (fl : RFlags) (st : St) (i : Info) {m : List UInt8} (h : (0 : UInt8) ∈ m) : tagProcess fl st i m ≠ .ub := by
  unfold tagProcess
  repeat' split
  all_goals first | simp | exact absurd h (by assumption)

/-- **C74.** If a zero byte follows the data somewhere, no memory behind it is touched, whatever the data. -/
theorem read_safe (fl : RFlags) (multi : Bool) (d : List UInt8) {after : List UInt8} (h : (0 : UInt8) ∈ after) : read fl multi d after ≠ .ub := by
  have hl : ∀ (n : Nat) (st : St) (d : List UInt8), d.length < n → readLoop fl multi after n st d ≠ .ub := by
    intro n
    induction n with
    | zero => intro st d hd; omega
    | succ n ih =>
      intro st d hd
      cases d with
      | nil => simp [readLoop]
      | cons c r =>
        rw [readLoop]
        simp at hd
        split
        · exact ih st r (by omega)
        · split
          · split <;> simp
          · split
            · cases e : readTag fl after st (c :: r) with
              | ub =>
                exfalso
                simp only [readTag] at e
                cases ei : tagInfo (c :: r) with
                | ub => exact tagInfo_no_ub c r ei
                | err _ => simp [ei, Res.bind] at e
                | ok i =>
                  simp only [ei, Res.bind] at e
                  cases ep : tagProcess fl st i (i.data ++ after) with
                  | ub => exact tagProcess_no_ub fl st i (by simp [h]) ep
                  | err _ => simp [ep] at e
                  | ok s => simp [ep] at e
              | err _ => simp [Res.bind]
              | ok x =>
                have := readTag_len e
                simp only [Res.bind]
                exact ih _ _ (by simp at this; omega)
            · rename_i h60
              have := readText_len fl st c r h60
              exact ih _ _ (by simp at this; omega)
  simp only [read]
  split
  · simp
  · have := hl (d.length + 1) ⟨[], []⟩ d (by omega)
    cases e : readLoop fl multi after (d.length + 1) ⟨[], []⟩ d with
    | ub => exact absurd e this
    | err _ => simp [Res.bind]
    | ok x => simp only [Res.bind]; repeat' split
              all_goals simp

/-- `<!--x--><a b = '1'><c/>y</a >` is accepted, `<a><b></a></b>` is not. -/
example : read {} false [60, 33, 45, 45, 120, 45, 45, 62, 60, 97, 32, 98, 32, 61, 32, 39, 49, 39, 62, 60, 99, 47, 62, 121, 60, 47, 97, 32, 62] [0] = .ok ([.comment [120], .elem [97] [([98], [49])] [.elem [99] [] [], .text [121]]], []) ∧
    read {} false [60, 97, 62, 60, 98, 62, 60, 47, 97, 62, 60, 47, 98, 62] [0] = .err .unexpectedClose := ⟨by rfl, by rfl⟩

/-- Two documents in a row. -/
example : read {} true [60, 97, 47, 62, 32, 60, 98, 47, 62] [0] = .ok ([.elem [97] [] []], [60, 98, 47, 62]) := by rfl

end Verif.Xml
