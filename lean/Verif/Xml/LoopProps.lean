import Verif.Xml.ReadProps
/-! The loop of the XML reader, comments and text: lemmas for C73. -/
namespace Verif.Xml
open Verif.Str (Alike eq eqMaxInt eqMax_iff NoOuter trim)
open Verif.Chr (isSpace toLower)

/-! ### Comments -/

theorem comment_first {s x p q : List UInt8} (hs : ∀ p q, s ≠ p ++ [45, 45, 62] ++ q)
    (e : tagData s ++ [32] ++ ([45, 45, 62] ++ x) = p ++ [45, 45, 62] ++ q) : (tagData s ++ [32]).length ≤ p.length := by
  apply Classical.byContradiction
  intro hlt
  have hlt : p.length < (tagData s).length + 1 := by simp at hlt; omega
  have hL : (tagData s ++ [32] ++ ([45, 45, 62] ++ x))[(tagData s).length]? = some 32 := by simp
  by_cases h3 : p.length + 3 ≤ (tagData s).length
  · -- the whole pattern lies in the tag data
    have e2 : tagData s = p ++ [45, 45, 62] ++ q.take ((tagData s).length - p.length - 3) := by
      have := congrArg (List.take (tagData s).length) e
      rw [List.append_assoc, List.take_left] at this
      have h5 : List.take (tagData s).length (p ++ [45, 45, 62] ++ q) = p ++ [45, 45, 62] ++ q.take ((tagData s).length - p.length - 3) := by
        rw [List.take_append, List.take_of_length_le (by simp; omega)]
        congr 2
        simp; omega
      rw [← h5]; exact this
    by_cases h0 : s = []
    · rw [h0] at e2; simp [tagData] at e2
    · simp only [tagData, h0, if_false] at e2
      cases p with
      | nil => simp at e2
      | cons a p =>
        simp only [List.cons_append, List.cons.injEq] at e2
        exact hs _ _ e2.2
  · rw [e] at hL
    rw [List.append_assoc, List.getElem?_append_right (by omega)] at hL
    have hk : (tagData s).length - p.length = 0 ∨ (tagData s).length - p.length = 1 ∨ (tagData s).length - p.length = 2 := by omega
    rcases hk with h | h | h <;> rw [h] at hL <;> simp at hL

theorem tagInfo_comment {s : List UInt8} (hs : ∀ p q, s ≠ p ++ [45, 45, 62] ++ q) (x : List UInt8) :
    tagInfo ([60, 33, 45, 45] ++ (tagData s ++ [32] ++ ([45, 45, 62] ++ x))) = .ok ⟨.comment, [], tagData s ++ [32] ++ ([45, 45, 62] ++ x), tagData s ++ [32], x⟩ := by
  obtain ⟨r, e, hr⟩ := Mem.mem_correct (tagData s ++ [32] ++ ([45, 45, 62] ++ x)) [45, 45, 62]
  have hr' : r = some (tagData s ++ [32]).length := by
    cases r with
    | none =>
      rcases hr with h | h
      · simp at h
      · exact absurd (List.append_assoc _ _ _).symm (h _ _)
    | some i =>
      obtain ⟨⟨p, q, e1, hp⟩, hmin⟩ := hr
      have h1 := comment_first hs e1
      have h2 := hmin (tagData s ++ [32]) x (List.append_assoc _ _ _).symm
      congr 1; omega
  subst hr'
  have h33 : isSpace 33 = false := by decide
  have h45 : isSpace 45 = false := by decide
  simp only [List.cons_append, List.nil_append, tagInfo, ne_eq, not_true, if_false, List.dropWhile_cons, h33, h45, Bool.false_eq_true, tagType]
  simp only [show ¬ ((33 : UInt8) = 47) from by decide, show ¬ ((33 : UInt8) = 63) from by decide, show ¬ ((33 : UInt8) = 60) from by decide, if_false, if_true]
  rw [if_neg (by simp), if_pos (by simp)]
  simp only [Res.bind, tagEnd, tagPos, List.drop_succ_cons, List.drop_zero]
  simp only [List.cons_append, List.nil_append] at e
  rw [e]
  simp only [Option.map_some]
  rw [if_pos (by simp)]
  congr 2
  · rw [List.take_left]
  · rw [List.drop_append]; simp

/-! ### Text -/

theorem entEncode_cons (c : UInt8) (s : List UInt8) : entEncode (c :: s) = enc1 encodeTable c ++ entEncode s := by
  simp [entEncode, encodeInt_eq]

theorem entEncode_append (a b : List UInt8) : entEncode (a ++ b) = entEncode a ++ entEncode b := by
  simp [entEncode, encodeInt_eq]

theorem entEncode_trimmed {s : List UInt8} (h0 : s ≠ []) (ht : Trimmed s) : entEncode s ≠ [] ∧ NoOuter (entEncode s) := by
  have hne : ∀ c : UInt8, enc1 encodeTable c ≠ [] := by
    intro c
    rcases enc1_ent c with ⟨e, _⟩ | h
    · simp [e]
    · generalize enc1 encodeTable c = r at h; cases h <;> simp
  cases s with
  | nil => exact absurd rfl h0
  | cons c t =>
    refine ⟨by rw [entEncode_cons]; simp [hne c], ?_, ?_⟩
    · intro d u e
      rw [entEncode_cons] at e
      rcases enc1_ent c with ⟨e1, _⟩ | h
      · rw [e1] at e
        simp only [List.cons_append, List.nil_append, List.cons.injEq] at e
        have := ht.1 c t rfl
        rw [← e.1]; rw [← space_iff] at this; simpa using this
      · generalize enc1 encodeTable c = r at h e
        cases h <;> (simp only [List.cons_append, List.cons.injEq] at e; rw [← e.1]; decide)
    · intro d u e
      have hl : c :: t = (c :: t).dropLast ++ [(c :: t).getLast (by simp)] := (List.dropLast_concat_getLast (by simp)).symm
      generalize (c :: t).getLast (by simp) = b at hl
      generalize (c :: t).dropLast = a at hl
      have := ht.2 b a hl
      rw [hl, entEncode_append, entEncode_cons] at e
      simp only [show entEncode [] = [] from rfl, List.append_nil] at e
      have hlast := congrArg List.getLast? e
      rcases enc1_ent b with ⟨e1, _⟩ | h
      · rw [e1] at hlast
        simp at hlast
        rw [← hlast]; rw [← space_iff] at this; simpa using this
      · generalize enc1 encodeTable b = r at h hlast
        cases h <;> (simp [List.getLast?_append] at hlast; rw [← hlast]; decide)

theorem readText_eq (fl : RFlags) (hfl : fl.rawText = false) (st : St) {s ws x : List UInt8} (hn : (0 : UInt8) ∉ s) (h0 : s ≠ []) (ht : Trimmed s)
    (hws : ∀ c ∈ ws, isSpace c = true) : readText fl st (entEncode s ++ (ws ++ 60 :: x)) = (st.add (.text s), 60 :: x) := by
  have hw60 : ∀ c ∈ ws, c ≠ 60 := by
    intro c hc e; subst e; exact absurd (hws _ hc) (by decide)
  have htw : (entEncode s ++ (ws ++ 60 :: x)).takeWhile (· ≠ 60) = entEncode s ++ ws := by
    rw [List.takeWhile_append_of_pos (fun c hc => by simpa using ((entEncode_correct s).2 c hc).1),
      List.takeWhile_append_of_pos (fun c hc => by simpa using hw60 c hc)]
    simp
  obtain ⟨hne, hno⟩ := entEncode_trimmed h0 ht
  have htrim : (((entEncode s ++ ws).dropWhile isSpace).reverse.dropWhile isSpace).reverse = entEncode s := by
    have h1 : (entEncode s ++ ws).dropWhile isSpace = entEncode s ++ ws := by
      cases e : entEncode s with
      | nil => exact absurd e hne
      | cons c t => rw [List.cons_append, List.dropWhile_cons, hno.1 c t e]; simp
    rw [h1, List.reverse_append, dropWhile_spaces _ _ (fun c hc => hws c (List.mem_reverse.1 hc))]
    have hl := (List.dropLast_concat_getLast hne).symm
    have h2 := hno.2 _ _ hl
    rw [hl, List.reverse_append, List.reverse_singleton, List.cons_append, List.nil_append, List.dropWhile_cons, h2]
    simp
  simp only [readText, htw, htrim, hfl, ent_roundtrip s [0] hn, Bool.false_eq_true, if_false]
  congr 1
  rw [← List.append_assoc, List.drop_left]

/-! ### The loop -/

theorem tagType_len {p : List UInt8} {t : Tag × List UInt8} (h : tagType p = .ok t) : t.2.length ≤ p.length := by
  have hd : ∀ l : List UInt8, (l.dropWhile isSpace).length ≤ l.length := fun l => (List.dropWhile_sublist _).length_le
  cases p with
  | nil => simp [tagType] at h
  | cons c r =>
    simp only [tagType] at h
    have := hd r
    repeat' split at h
    all_goals first | (simp only [Res.ok.injEq] at h; subst h; simp; done) | (simp only [Res.ok.injEq] at h; subst h; simp; omega) | (simp at h; done)

theorem tagEnd_len {ty : Tag} {d : List UInt8} {e : Tag × List UInt8 × List UInt8} (h : tagEnd ty d = .ok e) : e.2.2.length ≤ d.length := by
  unfold tagEnd at h
  revert h
  generalize tagPos ty d = pos
  intro h
  cases pos with
  | ub => simp [Res.bind] at h
  | err _ => simp [Res.bind] at h
  | ok o =>
    cases o with
    | none => simp [Res.bind] at h
    | some y =>
      obtain ⟨i, n⟩ := y
      simp only [Res.bind] at h
      repeat' split at h
      all_goals first | (injection h with h; subst h; simp) | (simp at h)

theorem tagInfo_len {d : List UInt8} {i : Info} (h : tagInfo d = .ok i) : i.rest.length < d.length := by
  have hd : ∀ l : List UInt8, (l.dropWhile isSpace).length ≤ l.length := fun l => (List.dropWhile_sublist _).length_le
  cases d with
  | nil => simp [tagInfo] at h
  | cons c r =>
    simp only [tagInfo] at h
    by_cases hc : c ≠ 60
    · rw [if_pos hc] at h; simp at h
    · rw [if_neg hc] at h
      cases et : tagType (r.dropWhile isSpace) with
      | ub => simp [et, Res.bind] at h
      | err _ => simp [et, Res.bind] at h
      | ok t =>
        simp only [et, Res.bind] at h
        cases ee : tagEnd t.1 t.2 with
        | ub => simp [ee] at h
        | err _ => simp [ee] at h
        | ok e =>
          simp only [ee] at h
          have h1 := tagType_len et
          have h2 := tagEnd_len ee
          have h3 := hd r
          repeat' split at h
          all_goals first | (injection h with h; subst h; simp; omega) | (simp at h)

theorem readTag_len {fl : RFlags} {after : List UInt8} {st : St} {d : List UInt8} {x : St × List UInt8} (h : readTag fl after st d = .ok x) : x.2.length < d.length := by
  simp only [readTag] at h
  cases ei : tagInfo d with
  | ub => simp [ei, Res.bind] at h
  | err _ => simp [ei, Res.bind] at h
  | ok i =>
    simp only [ei, Res.bind] at h
    cases ep : tagProcess fl st i (i.data ++ after) with
    | ub => simp [ep] at h
    | err _ => simp [ep] at h
    | ok s => simp only [ep] at h; injection h with h; subst h; exact tagInfo_len ei

theorem readText_len (fl : RFlags) (st : St) (c : UInt8) (r : List UInt8) (h : c ≠ 60) : (readText fl st (c :: r)).2.length < (c :: r).length := by
  simp only [readText, List.length_drop, List.takeWhile_cons]
  simp [h]
  omega

/-- More rounds than bytes make no difference. -/
theorem readLoop_fuel (fl : RFlags) (multi : Bool) (after : List UInt8) : ∀ (n m : Nat) (st : St) (d : List UInt8), d.length < n → d.length < m →
    readLoop fl multi after n st d = readLoop fl multi after m st d := by
  intro n
  induction n with
  | zero => intro m st d h; omega
  | succ n ih =>
    intro m st d hn hm
    cases m with
    | zero => omega
    | succ m =>
      cases d with
      | nil => simp [readLoop]
      | cons c r =>
        simp only [readLoop]
        rw [ih m st r (by simp at hn; omega) (by simp at hm; omega)]
        by_cases h60 : c = 60
        · simp only [h60, if_true]
          have : (readTag fl after st (60 :: r)).bind (fun x => readLoop fl multi after n x.1 x.2) =
              (readTag fl after st (60 :: r)).bind fun x => readLoop fl multi after m x.1 x.2 := by
            cases e : readTag fl after st (60 :: r) with
            | ub => rfl
            | err _ => rfl
            | ok x =>
              have := readTag_len e
              simp only [Res.bind]
              exact ih m _ _ (by simp at hn this; omega) (by simp at hm this; omega)
          rw [this]
        · have hl := readText_len fl st c r h60
          rw [ih m _ _ (by simp at hn hl; omega) (by simp at hm hl; omega)]
          simp only [h60, if_false]

/-- The loop with enough rounds. -/
def readAll (fl : RFlags) (multi : Bool) (after : List UInt8) (st : St) (d : List UInt8) : Res (St × List UInt8) := readLoop fl multi after (d.length + 1) st d

/-- The root element has been read. -/
def Done (st : St) : Prop := st.frames.isEmpty = true ∧ st.doc.any Node.isElem = true

theorem readAll_space (fl : RFlags) (multi : Bool) (after : List UInt8) (st : St) (ws x : List UInt8) (h : ∀ c ∈ ws, isSpace c = true) :
    readAll fl multi after st (ws ++ x) = readAll fl multi after st x := by
  induction ws with
  | nil => rfl
  | cons c ws ih =>
    rw [← ih fun d hd => h d (by simp [hd])]
    simp only [readAll, List.cons_append, List.length_cons]
    rw [readLoop, if_pos (h c (by simp))]

theorem readAll_tag {fl : RFlags} {multi : Bool} {after : List UInt8} {st : St} (hnd : ¬ Done st) {d : List UInt8} {i : Info} {r : List UInt8} (hd : d = 60 :: r)
    (hi : tagInfo d = .ok i) {st' : St} (hp : tagProcess fl st i (i.data ++ after) = .ok st') : readAll fl multi after st d = readAll fl multi after st' i.rest := by
  have hlen := tagInfo_len hi
  subst hd
  simp only [readAll, List.length_cons]
  rw [readLoop, if_neg (by decide), if_neg (show ¬ (st.frames.isEmpty = true ∧ st.doc.any Node.isElem = true) from hnd), if_pos rfl]
  simp only [readTag, hi, Res.bind, hp]
  exact readLoop_fuel _ _ _ _ _ _ _ (by simp at hlen; omega) (by omega)

theorem readAll_text {fl : RFlags} {multi : Bool} {after : List UInt8} {st : St} (hnd : ¬ Done st) {c : UInt8} {r : List UInt8} (h1 : isSpace c = false) (h2 : c ≠ 60) :
    readAll fl multi after st (c :: r) = readAll fl multi after (readText fl st (c :: r)).1 (readText fl st (c :: r)).2 := by
  have hlen := readText_len fl st c r h2
  simp only [readAll, List.length_cons]
  rw [readLoop, h1]
  simp only [Bool.false_eq_true, if_false]
  rw [if_neg (show ¬ (st.frames.isEmpty = true ∧ st.doc.any Node.isElem = true) from hnd), if_neg h2]
  exact readLoop_fuel _ _ _ _ _ _ _ (by simp at hlen; omega) (by omega)

end Verif.Xml
