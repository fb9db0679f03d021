import Verif.JsonPath.SearchLemmas

/-!
# Lemmas about searching JSON: the text of an expression
-/

namespace Verif.JsonPath

theorem ItemTexts.clean {l : List Item} {ts : List (List UInt8)} (h : ItemTexts l ts) :
    ∀ t ∈ ts, (0 : UInt8) ∉ t ∧ (46 : UInt8) ∉ t ∧ (91 : UInt8) ∉ t := by
  induction h with
  | nil => intro t ht; cases ht
  | cons h1 _ ih =>
    intro t ht
    rcases List.mem_cons.mp ht with rfl | ht
    · exact ⟨h1.clean.1, h1.clean.2.2.1, h1.clean.2.2.2⟩
    · exact ih t ht

/-- The text of a step is a bracket with something in it, or has no bracket. -/
theorem SelText.shape {s : Sel} {t : List UInt8} (h : SelText s t) :
    (0 : UInt8) ∉ t ∧ (46 : UInt8) ∉ t ∧
      (s.bracket = true → ∃ b, t = 91 :: b ∧ b ≠ [] ∧ (91 : UInt8) ∉ b) ∧
      (s.bracket = false → (91 : UInt8) ∉ t) := by
  cases h with
  | name h1 h2 h3 h4 h5 => exact ⟨h3, h4, nofun, fun _ => h5⟩
  | any => exact ⟨by decide, by decide, nofun, fun _ => by decide⟩
  | all => exact ⟨by decide, by decide, fun _ => ⟨[42, 93], rfl, by decide, by decide⟩, nofun⟩
  | @items l ts h1 h2 =>
    have key : ∀ c : UInt8, c ≠ 44 → c ≠ 93 → (∀ t ∈ ts, c ∉ t) → c ∉ Str.join [44] ts ++ [93] := by
      intro c h44 h93 hc hm
      rcases List.mem_append.mp hm with hm | hm
      · rcases join_mem 44 c ts hm with h | ⟨t, ht, h⟩
        · exact h44 h
        · exact hc t ht h
      · exact h93 (List.mem_singleton.mp hm)
    refine ⟨?_, ?_, fun _ => ⟨_, rfl, by simp, ?_⟩, nofun⟩
    · intro h
      rcases List.mem_cons.mp h with h | h
      · exact absurd h (by decide)
      · exact key 0 (by decide) (by decide) (fun t ht => (h2.clean t ht).1) h
    · intro h
      rcases List.mem_cons.mp h with h | h
      · exact absurd h (by decide)
      · exact key 46 (by decide) (by decide) (fun t ht => (h2.clean t ht).2.1) h
    · exact key 91 (by decide) (by decide) (fun t ht => (h2.clean t ht).2.2)

/-- What stands between the dots of an expression, `cur` coming before it. -/
def chunks (cur : List UInt8) : List (Step × List UInt8) → List (List UInt8)
  | [] => [cur]
  | (⟨deep, sel⟩, t) :: r =>
    if deep then cur :: [] :: chunks t r
    else if sel.bracket then chunks (cur ++ t) r
    else cur :: chunks t r

theorem chunks_ne : ∀ (r : List (Step × List UInt8)) (cur : List UInt8), chunks cur r ≠ []
  | [], _ => by simp [chunks]
  | (⟨deep, sel⟩, t) :: r, cur => by
    rw [chunks]
    split
    · simp
    · split
      · exact chunks_ne r _
      · simp

theorem chunks_join : ∀ (r : List (Step × List UInt8)) (cur : List UInt8),
    Str.join [46] (chunks cur r) = cur ++ text r
  | [], cur => by simp [chunks, text, Str.join]
  | (⟨deep, sel⟩, t) :: r, cur => by
    rw [chunks, text]
    cases deep with
    | true =>
      rw [if_pos rfl, if_pos rfl, Str.join_cons _ _ (by simp), Str.join_cons _ _ (chunks_ne r t),
        chunks_join r t]
      simp
    | false =>
      simp only [Bool.false_eq_true, if_false]
      cases hb : sel.bracket with
      | true => simp only [if_true]; rw [chunks_join r]; simp
      | false =>
        simp only [Bool.false_eq_true, if_false]
        rw [Str.join_cons _ _ (chunks_ne r t), chunks_join r t]
        simp

/-- `cur` is made of `f` and bracketed texts, which are the segments `ss`. -/
def Made (cur : List UInt8) (ss : List Seg) : Prop :=
  ∃ (f : List UInt8) (bs : List (List UInt8)), (91 : UInt8) ∉ f ∧ (∀ b ∈ bs, b ≠ [] ∧ (91 : UInt8) ∉ b) ∧
    cur = f ++ (bs.map (91 :: ·)).flatten ∧ cur ≠ [] ∧ (0 : UInt8) ∉ cur ∧ (46 : UInt8) ∉ cur ∧
    ss = (if f = [] then [] else [f]) ++ bs.map (91 :: ·)

theorem Made.single {sel : Sel} {t : List UInt8} (h : SelText sel t) : Made t [t] := by
  obtain ⟨h0, h46, hb, hn⟩ := h.shape
  cases e : sel.bracket with
  | false =>
    exact ⟨t, [], hn e, by simp, by simp, h.ne, h0, h46, by simp [h.ne]⟩
  | true =>
    obtain ⟨b, rfl, hb1, hb2⟩ := hb e
    exact ⟨[], [b], by simp, by simpa using ⟨hb1, hb2⟩, by simp, h.ne, h0, h46, by simp⟩

theorem Made.more {cur : List UInt8} {ss : List Seg} (m : Made cur ss) {sel : Sel} {t : List UInt8}
    (h : SelText sel t) (e : sel.bracket = true) : Made (cur ++ t) (ss ++ [t]) := by
  obtain ⟨f, bs, m1, m2, m3, m4, m5, m6, m7⟩ := m
  obtain ⟨h0, h46, hb, _⟩ := h.shape
  obtain ⟨b, rfl, hb1, hb2⟩ := hb e
  refine ⟨f, bs ++ [b], m1, ?_, ?_, by simp, ?_, ?_, ?_⟩
  · intro x hx
    rcases List.mem_append.mp hx with hx | hx
    · exact m2 x hx
    · rw [List.mem_singleton.mp hx]; exact ⟨hb1, hb2⟩
  · rw [m3]; simp
  · exact fun h => (List.mem_append.mp h).elim m5 h0
  · exact fun h => (List.mem_append.mp h).elim m6 h46
  · rw [m7]; simp

theorem join_brackets : ∀ (bs : List (List UInt8)) (f : List UInt8),
    Str.join [91] (f :: bs) = f ++ (bs.map (91 :: ·)).flatten
  | [], f => by simp [Str.join]
  | b :: bs, f => by
    rw [Str.join_cons _ _ (by simp), join_brackets bs b]
    simp

theorem pieces_brackets : ∀ bs : List (List UInt8), (∀ b ∈ bs, b ≠ []) →
    pieces false bs = bs.map (91 :: ·)
  | [], _ => rfl
  | b :: bs, h => by
    rw [pieces, if_neg (h b (by simp)), if_neg (by decide),
      pieces_brackets bs fun x hx => h x (List.mem_cons_of_mem _ hx)]
    rfl

theorem Made.pieces {cur : List UInt8} {ss : List Seg} (m : Made cur ss) :
    ∃ ps, Str.explode 91 cur = some ps ∧ pieces (cur.head? ≠ some 91) ps = ss := by
  obtain ⟨f, bs, m1, m2, m3, m4, m5, m6, m7⟩ := m
  rw [← join_brackets] at m3
  refine ⟨f :: bs, ?_, ?_⟩
  · rw [m3]
    refine Str.explode_join 91 _ ?_ (m3 ▸ m5) (m3 ▸ m4)
    intro x hx
    rcases List.mem_cons.mp hx with rfl | hx
    · exact m1
    · exact (m2 x hx).2
  · rw [JsonPath.pieces, pieces_brackets bs fun b hb => (m2 b hb).1, m7]
    cases f with
    | nil => rfl
    | cons c f =>
      have : cur.head? = some c := by rw [m3, join_brackets]; rfl
      have hc : c ≠ 91 := fun h => m1 (by simp [h])
      simp [this, hc]

theorem segments_made {cur : List UInt8} {ss : List Seg} (m : Made cur ss) (l : List (List UInt8)) :
    segments (cur :: l) = (segments l).map (ss ++ ·) := by
  obtain ⟨ps, h1, h2⟩ := m.pieces
  obtain ⟨_, _, _, _, _, m4, _⟩ := m
  rw [segments, if_neg m4, h1]
  simp only [h2]

theorem segments_chunks : ∀ (r : List (Step × List UInt8)) (cur : List UInt8) (ss : List Seg),
    Texts r → Made cur ss → segments (chunks cur r) = some (ss ++ segsOf r)
  | [], cur, ss, _, m => by
    rw [chunks, segments_made m]
    rfl
  | (⟨deep, sel⟩, t) :: r, cur, ss, ht, m => by
    have hsel : SelText sel t := ht _ List.mem_cons_self
    have ht' : Texts r := fun x hx => ht x (List.mem_cons_of_mem _ hx)
    have ih := segments_chunks r t [t] ht' (.single hsel)
    rw [chunks, segsOf]
    cases deep with
    | true =>
      rw [if_pos rfl, segments_made m, segments, if_pos rfl, ih]
      simp
    | false =>
      rw [if_neg (by decide)]
      cases hb : sel.bracket with
      | true =>
        rw [if_pos rfl, segments_chunks r _ _ ht' (m.more hsel hb)]
        simp
      | false =>
        rw [if_neg (by decide), segments_made m, ih]
        simp

theorem chunks_clean : ∀ (r : List (Step × List UInt8)) (cur : List UInt8), Texts r →
    ∀ c : UInt8, (c = 0 ∨ c = 46) → c ∉ cur → ∀ x ∈ chunks cur r, c ∉ x
  | [], cur, _, c, _, h, x, hx => by rwa [List.mem_singleton.mp hx]
  | (⟨deep, sel⟩, t) :: r, cur, ht, c, hc, h, x, hx => by
    have hsel : SelText sel t := ht _ List.mem_cons_self
    have ht' : Texts r := fun x hx => ht x (List.mem_cons_of_mem _ hx)
    have h2 : c ∉ t := by rcases hc with rfl | rfl; exact hsel.shape.1; exact hsel.shape.2.1
    rw [chunks] at hx
    split at hx
    · rcases List.mem_cons.mp hx with rfl | hx
      · exact h
      · rcases List.mem_cons.mp hx with rfl | hx
        · simp
        · exact chunks_clean r t ht' c hc h2 x hx
    · split at hx
      · exact chunks_clean r _ ht' c hc (fun hm => (List.mem_append.mp hm).elim h h2) x hx
      · rcases List.mem_cons.mp hx with rfl | hx
        · exact h
        · exact chunks_clean r t ht' c hc h2 x hx

/-- The search an expression whose first step is `..` or a bracket comes to. -/
theorem jsonpath_text (j : Json.Json) {x : Step × List UInt8} {r : List (Step × List UInt8)}
    (ht : Texts (x :: r)) (h1 : x.1.deep = true ∨ x.1.sel.bracket = true) :
    jsonpath j (36 :: text (x :: r)) = some (search j (segsOf (x :: r)) false) := by
  obtain ⟨⟨deep, sel⟩, t⟩ := x
  have hsel : SelText sel t := ht _ List.mem_cons_self
  have ht' : Texts r := fun x hx => ht x (List.mem_cons_of_mem _ hx)
  have he : Str.explode 46 (text ((⟨deep, sel⟩, t) :: r)) = some (chunks [] ((⟨deep, sel⟩, t) :: r)) := by
    have hj := chunks_join ((⟨deep, sel⟩, t) :: r) []
    rw [List.nil_append] at hj
    rw [← hj]
    refine Str.explode_join 46 _ (chunks_clean _ [] ht 46 (.inr rfl) (by simp)) ?_ ?_
    · intro hm
      rcases join_mem 46 0 _ hm with h | ⟨y, hy, h⟩
      · exact absurd h (by decide)
      · exact chunks_clean _ [] ht 0 (.inl rfl) (by simp) y hy h
    · rw [hj, text]
      simp [hsel.ne]
  have hs : ∃ ss, segments (chunks [] ((⟨deep, sel⟩, t) :: r)) = some ss ∧
      search j ss false = search j (segsOf ((⟨deep, sel⟩, t) :: r)) false := by
    rw [chunks]
    cases deep with
    | true =>
      rw [if_pos rfl, segments, if_pos rfl, segments, if_pos rfl,
        segments_chunks r t [t] ht' (.single hsel)]
      refine ⟨_, rfl, ?_⟩
      show search j ([] :: [] :: t :: segsOf r) false = search j ([] :: t :: segsOf r) false
      rw [search_blank, search_blank, search_blank]
    | false =>
      have hb : sel.bracket = true := h1.resolve_left (by simp)
      rw [if_neg (by decide), if_pos hb, List.nil_append, segments_chunks r t [t] ht' (.single hsel)]
      exact ⟨_, rfl, rfl⟩
  obtain ⟨ss, hs1, hs2⟩ := hs
  rw [jsonpath, if_neg (by simp), List.drop_succ_cons, List.drop_zero, he]
  rcases hc : chunks [] ((⟨deep, sel⟩, t) :: r) with _ | ⟨c, cs⟩
  · exact absurd hc (chunks_ne _ _)
  · rw [hc] at hs1
    simp only [hs1, hs2]

end Verif.JsonPath
