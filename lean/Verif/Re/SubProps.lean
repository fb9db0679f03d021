import Verif.Re.SubLemmas
/-! C117: replacing the matches of a regular expression. -/
namespace Verif.Re
open Verif.Utf8 (flat Good)

/-- Pieces one after the other between a place and the end. -/
def InOrder (n : Int) : Int → List (Int × Int) → Prop
  | pos, [] => 0 ≤ pos ∧ pos ≤ n
  | pos, (o, l) :: r => 0 ≤ pos ∧ pos ≤ o ∧ 0 ≤ l ∧ o + l ≤ n ∧ InOrder n (o + l) r

theorem flat_split (w : List Nat) (j : Nat) : off w j + (flat (w.drop j)).length = (flat w).length := by
  unfold off
  rw [← List.length_append]
  conv => rhs; rw [← List.take_append_drop j w]
  unfold flat
  rw [List.flatMap_append]

theorem tokens_order {alnum : Nat → Bool} {t : Tnfa} {w : List Nat} {base : Nat} {l : List (Int × Int)} (h : Tokens alnum t w base l) :
    InOrder ((base : Int) + (flat w).length) base l := by
  induction h with
  | done _ => exact ⟨by omega, by omega⟩
  | @more w base i j r h hj hr ih =>
    obtain ⟨⟨hh, hp⟩, -⟩ := h
    have hij := hp.le
    have hm := off_mono w hij.1
    have hs := flat_split w j
    refine ⟨by omega, by omega, by omega, by omega, ?_⟩
    have e1 : ((base + off w i : Nat) : Int) + ((off w j - off w i : Nat) : Int) = ((base + off w j : Nat) : Int) := by omega
    have e2 : ((base + off w j : Nat) : Int) + ((flat (w.drop j)).length : Int) = (base : Int) + (flat w).length := by omega
    rw [e1, ← e2]
    exact ih

theorem slice_piece {s tail : List UInt8} {o l : Int} (h1 : 0 ≤ o) (h2 : 0 ≤ l) (h3 : o + l ≤ s.length) :
    ∃ x, slice (s ++ tail) o l = some x ∧ Piece s o l x := by
  refine ⟨(s.drop o.toNat).take l.toNat, ?_, s.take o.toNat, (s.drop o.toNat).drop l.toNat, ?_, ?_, ?_⟩
  · unfold slice
    rw [if_pos ⟨h1, h2, by rw [List.length_append]; omega⟩, List.drop_append_of_le_length (by omega),
      List.take_append_of_le_length (by rw [List.length_drop]; omega)]
  · rw [List.append_assoc, List.take_append_drop, List.take_append_drop]
  · rw [List.length_take]; omega
  · rw [List.length_take, List.length_drop]; omega

/-- All captures of a match lie within the text. -/
def Inside (n : Nat) (m : List Cap) : Prop := ∀ v o l, capIdx m v = some (o, l) → 0 ≤ o ∧ 0 ≤ l ∧ o + l ≤ n

theorem cap_spec {s tail : List UInt8} {m : List Cap} (hi : Inside s.length m) :
    ∃ cap : Nat → List UInt8, (∀ v, capText (s ++ tail) m v = some (cap v)) ∧ ∀ v, CapOf s m v (cap v) := by
  have key : ∀ v, ∃ x, capText (s ++ tail) m v = some x ∧ CapOf s m v x := by
    intro v
    unfold capText CapOf
    cases hv : capIdx m v with
    | none => exact ⟨[], rfl, .inr ⟨rfl, rfl⟩⟩
    | some p =>
      obtain ⟨o, l⟩ := p
      obtain ⟨h1, h2, h3⟩ := hi v o l hv
      obtain ⟨x, e1, e2⟩ := slice_piece (tail := tail) h1 h2 h3
      exact ⟨x, e1, .inl ⟨o, l, rfl, e2⟩⟩
  exact ⟨fun v => (key v).choose, fun v => (key v).choose_spec.1, fun v => (key v).choose_spec.2⟩

theorem subLoop_spec {s junk templ : List UInt8} (hz : ∀ b ∈ s, b ≠ 0) (hn : Neat templ) :
    ∀ (ms : List (List Cap)) (l : List (Int × Int)) pos buf, InOrder s.length pos l → ms.map (fun m => capIdx m 0) = l.map some →
      (∀ m ∈ ms, Inside s.length m) →
      ∃ out, subLoop (s ++ 0 :: junk) templ ms pos buf = some (buf ++ out) ∧ Spliced s templ pos ms out := by
  intro ms
  induction ms with
  | nil =>
    intro l pos buf ho hl _
    cases l with
    | cons a l => simp at hl
    | nil =>
      obtain ⟨h1, h2⟩ := ho
      obtain ⟨x, e1, e2⟩ := slice_piece (s := s) (tail := 0 :: junk) (o := pos) (l := (s.length : Int) - pos) h1 (by omega) (by omega)
      refine ⟨x, ?_, .done e2⟩
      rw [subLoop, cLen_flat s hz, e1]
  | cons m ms ih =>
    intro l pos buf ho hl hi
    cases l with
    | nil => simp at hl
    | cons p l =>
      obtain ⟨o, k⟩ := p
      obtain ⟨h1, h2, h3, h4, h5⟩ := ho
      simp only [List.map_cons, List.cons.injEq] at hl
      obtain ⟨x, e1, e2⟩ := slice_piece (s := s) (tail := 0 :: junk) (o := pos) (l := o - pos) h1 (by omega) (by omega)
      obtain ⟨cap, c1, c2⟩ := cap_spec (tail := 0 :: junk) (hi m (List.mem_cons_self ..))
      obtain ⟨y, y1, y2⟩ := buildLoop_spec c1 (templ.length + 1) templ [] hn (by omega)
      obtain ⟨z, z1, z2⟩ := ih l (o + k) (buf ++ x ++ y) h5 hl.2 (fun m' hm' => hi m' (List.mem_cons_of_mem _ hm'))
      refine ⟨x ++ y ++ z, ?_, .more hl.1 e2 c2 y2 z2⟩
      have e0 : capIdx0 m = (o, k) := by unfold capIdx0; rw [hl.1]; rfl
      rw [subLoop, e0]
      simp only [e1, build1, y1, List.nil_append, z1]
      simp

/-- **A template is expanded as documented**: references are replaced by what was captured, a backslash that begins no reference stays,
as does everything else.  The hypothesis leaves out white space and signs after `\g<`; see `template_fails`. -/
theorem template_partial (s junk templ : List UInt8) (m : List Cap) (hi : Inside s.length m) (hn : Neat templ) :
    ∃ cap o, build1 (s ++ 0 :: junk) m templ = some o ∧ (∀ v, CapOf s m v (cap v)) ∧ Expands cap templ o := by
  obtain ⟨cap, c1, c2⟩ := cap_spec (tail := 0 :: junk) hi
  obtain ⟨y, y1, y2⟩ := buildLoop_spec c1 (templ.length + 1) templ [] hn (by omega)
  exact ⟨cap, y, by rw [build1, y1]; rfl, c2, y2⟩

/-- What a template stands for is determined. -/
theorem template_unique (cap : Nat → List UInt8) (t o o' : List UInt8) (h : Expands cap t o) (h' : Expands cap t o') : o = o' := h.unique h'

/-- `x\1\g<2>y\n\g<3` for "ab" with the captures "a" and "b". -/
example : build1 [97, 98, 0] [⟨0, 0, 2⟩, ⟨1, 0, 1⟩, ⟨2, 1, 1⟩] [120, 92, 49, 92, 103, 60, 50, 62, 121, 92, 110, 92, 103, 60, 51] =
    some [120, 97, 98, 121, 92, 110, 92, 103, 60, 51] := by decide +kernel

/-- **Signs and white space.**  `\g<-1>` is no reference and should stay; it vanishes.  `\g<+1>` and `\g< 1>` are taken for
references. -/
theorem template_fails :
    build1 [97, 0] [⟨0, 0, 1⟩, ⟨1, 0, 1⟩] [92, 103, 60, 45, 49, 62] = some []
    ∧ build1 [97, 0] [⟨0, 0, 1⟩, ⟨1, 0, 1⟩] [92, 103, 60, 43, 49, 62] = some [97]
    ∧ build1 [97, 0] [⟨0, 0, 1⟩, ⟨1, 0, 1⟩] [92, 103, 60, 32, 49, 62] = some [97]
    ∧ ∀ cap, Expands cap [92, 103, 60, 45, 49, 62] [92, 103, 60, 45, 49, 62] := by
  refine ⟨by decide +kernel, by decide +kernel, by decide +kernel, fun cap => ?_⟩
  have no : ∀ c r, c ≠ 92 → ∀ v r', ¬ IsRef (c :: r) v r' := by
    intro c r hc v r' h
    obtain ⟨q, hq, -⟩ := h.suffix
    simp only [List.cons_append, List.cons.injEq] at hq
    exact hc hq.1
  refine .char ?_ (.char (no _ _ (by decide)) (.char (no _ _ (by decide)) (.char (no _ _ (by decide)) (.char (no _ _ (by decide))
    (.char (no _ _ (by decide)) .nil)))))
  intro v r' h
  cases h with
  | one ha _ => exact absurd ha (by decide)
  | two ha _ => exact absurd ha (by decide)
  | name2 ha _ => exact absurd ha (by decide)

/-- **Every match is replaced, and nothing else.**  For a pattern that never matches an empty text the result is the text with each of
its matches replaced by the expanded template.  The captures must lie within the text, which is up to the tags of the pattern.  The full
claim is the same for every pattern; it is false, see `sub_null`. -/
theorem sub_partial (alnum : Nat → Bool) (t : Tnfa) (w : List Nat) (junk templ : List UInt8) (h0 : alnum 0 = false) (hg : Good w)
    (hp : Plain t) (hne : ∀ v i j, Good v → Matches alnum t v i j → i < j) (hn : Neat templ)
    (hi : ∀ r, all alnum t (flat w ++ 0 :: junk) = some (some r) → ∀ m ∈ r, Inside (flat w).length m) (hw : w ≠ []) :
    ∃ r l out, all alnum t (flat w ++ 0 :: junk) = some (some r) ∧ Tokens alnum t w 0 l ∧ r.map (fun m => capIdx m 0) = l.map some ∧
      sub alnum t templ (flat w ++ 0 :: junk) = some out ∧ Spliced (flat w) templ 0 r out := by
  obtain ⟨r, l, h1, h2, h3⟩ := matches_partial alnum t w junk h0 hg hp hne hw
  have ho := tokens_order h2
  obtain ⟨out, e1, e2⟩ := subLoop_spec (junk := junk) (flat_nz hg) hn r l 0 [] (by simpa using ho) h3 (hi r h1)
  refine ⟨r, l, out, h1, h2, h3, ?_, e2⟩
  have hl : cLen (flat w ++ 0 :: junk) = (flat w).length := cLen_flat _ (flat_nz hg) junk
  have hle := Utf8.flat_length w
  have hpos := List.length_pos_iff.2 hw
  unfold sub
  rw [hl, if_neg (by omega), h1]
  simpa using e1

theorem nest_length (subs : List Sub) : ∀ n i pm, (nest subs n i pm).length = pm.length := by
  intro n
  induction n with
  | zero => intro i pm; rfl
  | succ n ih =>
    intro i pm
    simp only [nest]
    split
    · rfl
    · rw [ih, List.length_set]

theorem caps_lt : ∀ (pm : List (Int × Int)) i, ∀ c ∈ caps i pm, c.idx < i + pm.length := by
  intro pm
  induction pm with
  | nil => intro i c hc; simp [caps] at hc
  | cons p pm ih =>
    intro i c hc
    obtain ⟨so, eo⟩ := p
    simp only [caps] at hc
    simp only [List.length_cons]
    split at hc
    · have := ih (i + 1) c hc; omega
    · rcases List.mem_cons.1 hc with rfl | h
      · simp
      · have := ih (i + 1) c h; omega

theorem search_idx {alnum : Nat → Bool} {t : Tnfa} {s : List UInt8} {m : List Cap} (h : search alnum t s = some (some m)) :
    ∀ c ∈ m, c.idx < t.subs.length := by
  unfold search exec at h
  simp only [if_true] at h
  cases hr : run alnum t t.numTags s with
  | ub => rw [hr] at h; simp at h
  | «nomatch» => rw [hr] at h; simp at h
  | ok eo tg =>
    rw [hr] at h
    simp only [Option.some.injEq] at h
    intro c hc
    rw [← h] at hc
    have := caps_lt _ 0 c hc
    unfold fill at this
    rw [nest_length, List.length_map] at this
    omega

theorem all_idx {alnum : Nat → Bool} {t : Tnfa} {s : List UInt8} {r : List (List Cap)} (h : all alnum t s = some (some r)) :
    ∀ m ∈ r, ∀ c ∈ m, c.idx < t.subs.length := by
  have key : ∀ n pos acc, (∀ m ∈ acc, ∀ c ∈ m, c.idx < t.subs.length) → ∀ r, matchesLoop alnum t s n pos acc = some (some r) →
      ∀ m ∈ r, ∀ c ∈ m, c.idx < t.subs.length := by
    intro n
    induction n with
    | zero => intro pos acc _ r h; simp [matchesLoop] at h
    | succ n ih =>
      intro pos acc ha r h
      simp only [matchesLoop] at h
      split at h
      · simp at h
      · simp only [Option.some.injEq] at h
        rw [← h]; exact ha
      · next m hm =>
        split at h
        · simp at h
        · refine ih _ _ ?_ r h
          intro m' hm' c hc
          rcases List.mem_append.1 hm' with h' | h'
          · exact ha m' h' c hc
          · simp only [List.mem_singleton] at h'
            subst h'
            unfold shift at hc
            obtain ⟨c', hc', rfl⟩ := List.mem_map.1 hc
            exact search_idx hm c' hc'
  unfold all at h
  split at h
  · simp at h
  · exact key _ _ _ (by simp) r h

theorem order_bounds {n : Int} : ∀ (l : List (Int × Int)) pos, InOrder n pos l → ∀ p ∈ l, 0 ≤ p.1 ∧ 0 ≤ p.2 ∧ p.1 + p.2 ≤ n := by
  intro l
  induction l with
  | nil => intro pos _ p hp; simp at hp
  | cons a l ih =>
    intro pos h p hp
    obtain ⟨o, k⟩ := a
    obtain ⟨h1, h2, h3, h4, h5⟩ := h
    rcases List.mem_cons.1 hp with rfl | hp
    · exact ⟨by simp only; omega, h3, h4⟩
    · exact ih _ h5 p hp

/-- The same for a pattern without groups, whose matches have no other captures. -/
theorem sub_nogroups_partial (alnum : Nat → Bool) (t : Tnfa) (w : List Nat) (junk templ : List UInt8) (h0 : alnum 0 = false) (hg : Good w)
    (hp : Plain t) (hone : t.subs.length = 1) (hne : ∀ v i j, Good v → Matches alnum t v i j → i < j) (hn : Neat templ) (hw : w ≠ []) :
    ∃ r l out, all alnum t (flat w ++ 0 :: junk) = some (some r) ∧ Tokens alnum t w 0 l ∧ r.map (fun m => capIdx m 0) = l.map some ∧
      sub alnum t templ (flat w ++ 0 :: junk) = some out ∧ Spliced (flat w) templ 0 r out := by
  refine sub_partial alnum t w junk templ h0 hg hp hne hn ?_ hw
  intro r' hr' m hm v o l hv
  obtain ⟨r, ls, h1, h2, h3⟩ := matches_partial alnum t w junk h0 hg hp hne hw
  rw [hr'] at h1
  simp only [Option.some.injEq] at h1
  subst h1
  have hv0 : v = 0 := by
    unfold capIdx at hv
    split at hv
    · next c hc =>
      have h1 := all_idx hr' m hm c (List.mem_of_find?_eq_some hc)
      have h2 := List.find?_some hc
      simp only [beq_iff_eq] at h2
      omega
    · simp at hv
  subst hv0
  have hmem : some (o, l) ∈ ls.map some := by
    rw [← h3, ← hv]
    exact List.mem_map_of_mem hm
  obtain ⟨p, hp1, hp2⟩ := List.mem_map.1 hmem
  simp only [Option.some.injEq] at hp2
  subst hp2
  have := order_bounds ls _ (tokens_order h2) _ hp1
  simpa using this

/-- "xbby" with `b+` replaced by `<\0>`. -/
example : sub noAlnum bPlus [60, 92, 48, 62] [120, 98, 98, 121, 0] = some [120, 60, 98, 98, 62, 121] := by decide +kernel

example : ∃ r l out, all noAlnum bPlus (flat [120, 98, 98, 121] ++ 0 :: []) = some (some r) ∧ Tokens noAlnum bPlus [120, 98, 98, 121] 0 l ∧
      r.map (fun m => capIdx m 0) = l.map some ∧ sub noAlnum bPlus [60, 92, 48, 62] (flat [120, 98, 98, 121] ++ 0 :: []) = some out ∧
      Spliced (flat [120, 98, 98, 121]) [60, 92, 48, 62] 0 r out :=
  sub_nogroups_partial noAlnum bPlus [120, 98, 98, 121] [] [60, 92, 48, 62] rfl (good_ascii (by decide)) plain_bPlus rfl bPlus_nonempty
    (by
      intro p c q h
      have := congrArg List.length h
      simp only [List.length_append, List.length_cons, List.length_nil] at this
      have h1 : p = [] := List.length_eq_zero_iff.1 (by omega)
      subst h1
      simp at h) (by simp)

/-- Replacing each match by itself changes nothing. -/
theorem sub_self {s : List UInt8} {pos : Int} {ms : List (List Cap)} {out : List UInt8} (h : Spliced s [92, 48] pos ms out)
    (hi : ∀ m ∈ ms, Inside s.length m) : ∃ p, s = p ++ out ∧ pos = p.length := by
  induction h with
  | done h =>
    obtain ⟨p, q, h1, h2, h3⟩ := h
    refine ⟨p, ?_, h2⟩
    have := congrArg List.length h1
    simp only [List.length_append] at this
    have hq : q = [] := List.length_eq_zero_iff.1 (by omega)
    rw [hq, List.append_nil] at h1
    exact h1
  | @more pos o l m ms x y z cap hm hx hc hy hz ih =>
    obtain ⟨p', e1, e2⟩ := ih (fun m' h' => hi m' (List.mem_cons_of_mem _ h'))
    obtain ⟨p, q, f1, f2, f3⟩ := hx
    have hy' : y = cap 0 := by
      have : Expands cap [92, 48] (cap 0 ++ []) := .ref (v := 0) (.one (a := 48) (r := []) (by decide) (by simp)) .nil
      rw [List.append_nil] at this
      exact hy.unique this
    have hyp : Piece s o l y := by
      rw [hy']
      rcases hc 0 with ⟨o', l', h1, h2⟩ | ⟨h1, -⟩
      · rw [hm] at h1
        simp only [Option.some.injEq, Prod.mk.injEq] at h1
        rw [h1.1, h1.2]; exact h2
      · rw [hm] at h1; simp at h1
    obtain ⟨a, b, g1, g2, g3⟩ := hyp
    refine ⟨p, ?_, f2⟩
    have hax : a = p ++ x := by
      have hla : a.length = (p ++ x).length := by rw [List.length_append]; omega
      have : a ++ (y ++ b) = (p ++ x) ++ q := by rw [← List.append_assoc, ← g1, ← f1]
      exact (List.append_inj this hla).1
    have hpe : p' = a ++ y := by
      have hla : p'.length = (a ++ y).length := by rw [List.length_append]; omega
      have : p' ++ z = (a ++ y) ++ b := by rw [← e1, ← g1]
      exact (List.append_inj this hla).1
    rw [e1, hpe, hax]
    simp

/-- So `M_re_sub` with `\0` returns the text. -/
theorem sub_self_partial (alnum : Nat → Bool) (t : Tnfa) (w : List Nat) (junk : List UInt8) (h0 : alnum 0 = false) (hg : Good w)
    (hp : Plain t) (hne : ∀ v i j, Good v → Matches alnum t v i j → i < j)
    (hi : ∀ r, all alnum t (flat w ++ 0 :: junk) = some (some r) → ∀ m ∈ r, Inside (flat w).length m) (hw : w ≠ []) :
    sub alnum t [92, 48] (flat w ++ 0 :: junk) = some (flat w) := by
  obtain ⟨r, l, out, h1, -, -, h4, h5⟩ := sub_partial alnum t w junk [92, 48] h0 hg hp hne (by
    intro p c q h
    have := congrArg List.length h
    simp only [List.length_append, List.length_cons, List.length_nil] at this
    omega) hi hw
  obtain ⟨p, e1, e2⟩ := sub_self h5 (hi r h1)
  have hp : p = [] := List.length_eq_zero_iff.1 (by omega)
  rw [hp, List.nil_append] at e1
  rw [h4, e1]

/-- **A pattern that can match nothing replaces nothing**: the text comes back unchanged, whatever else the pattern matches in it. -/
theorem sub_null (alnum : Nat → Bool) (t : Tnfa) (w : List Nat) (junk templ : List UInt8) (h0 : alnum 0 = false) (hg : Good w) (hp : Plain t)
    (he : ∀ v, Good v → Matches alnum t v v.length v.length) : sub alnum t templ (flat w ++ 0 :: junk) = some (flat w) := by
  have h := matches_null alnum t w junk h0 hg hp he
  have hl : cLen (flat w ++ 0 :: junk) = (flat w).length := cLen_flat _ (flat_nz hg) junk
  unfold sub
  rw [hl, h]
  split
  · next h' => rw [List.length_eq_zero_iff.1 h']
  · simp

/-- `b*` replaced by "x" in "bba": "bba". -/
theorem sub_fails : sub noAlnum bStar [120] [98, 98, 97, 0] = some [98, 98, 97] ∧ Matches noAlnum bStar [98, 98, 97] 0 2 := by
  refine ⟨sub_null noAlnum bStar [98, 98, 97] [] [120] rfl (good_ascii (by decide)) plain_bStar bStar_empty, [([0], 0), ([], 1), ([], 2)], ?_⟩
  refine .step (h := [([0], 0), ([], 1)]) (c := 98) (tr := ⟨98, 98, 1, [], 0⟩) (.step (h := [([0], 0)]) (c := 98) (tr := ⟨98, 98, 0, [], 0⟩)
    (.init (tr := ⟨0, 0, 0, [0], 0⟩) (by decide) (by decide) ⟨by simp, by simp, by simp, by simp, by simp, by simp⟩)
    (by decide) rfl (by decide) (by decide) ⟨by simp, by simp, by simp, by simp, by simp, by simp⟩)
    (by decide) rfl (by decide) (by decide) ⟨by simp, by simp, by simp, by simp, by simp, by simp⟩

/-- The pieces of a text at the given places. -/
def Pieces (s : List UInt8) : List (Int × Int) → List (List UInt8) → Prop
  | [], [] => True
  | (o, l) :: r, x :: xs => Piece s o l x ∧ Pieces s r xs
  | _, _ => False

/-- **All matches as strings**, in order. -/
theorem find_all_partial (alnum : Nat → Bool) (t : Tnfa) (w : List Nat) (junk : List UInt8) (h0 : alnum 0 = false) (hg : Good w) (hp : Plain t)
    (hne : ∀ v i j, Good v → Matches alnum t v i j → i < j) (hw : w ≠ []) :
    ∃ l xs, Tokens alnum t w 0 l ∧ findAll alnum t (flat w ++ 0 :: junk) = some (some xs) ∧ Pieces (flat w) l xs := by
  obtain ⟨r, l, h1, h2, h3⟩ := matches_partial alnum t w junk h0 hg hp hne hw
  have hb := order_bounds l _ (tokens_order h2)
  have loop : ∀ (ms : List (List Cap)) (l : List (Int × Int)) acc, ms.map (fun m => capIdx m 0) = l.map some →
      (∀ p ∈ l, 0 ≤ p.1 ∧ 0 ≤ p.2 ∧ p.1 + p.2 ≤ ((flat w).length : Int)) →
      ∃ xs, findLoop (flat w ++ 0 :: junk) ms acc = some (acc ++ xs) ∧ Pieces (flat w) l xs := by
    intro ms
    induction ms with
    | nil =>
      intro l acc hl _
      cases l with
      | cons a l => simp at hl
      | nil => exact ⟨[], by simp [findLoop], trivial⟩
    | cons m ms ih =>
      intro l acc hl hb
      cases l with
      | nil => simp at hl
      | cons p l =>
        obtain ⟨o, k⟩ := p
        simp only [List.map_cons, List.cons.injEq] at hl
        obtain ⟨b1, b2, b3⟩ := hb (o, k) (List.mem_cons_self ..)
        obtain ⟨x, e1, e2⟩ := slice_piece (tail := 0 :: junk) b1 b2 b3
        obtain ⟨xs, f1, f2⟩ := ih l (acc ++ [x]) hl.2 (fun p hp => hb p (List.mem_cons_of_mem _ hp))
        refine ⟨x :: xs, ?_, e2, f2⟩
        simp only [findLoop, hl.1, e1, f1]
        simp
  obtain ⟨xs, e1, e2⟩ := loop r l [] h3 (by simpa using hb)
  refine ⟨l, xs, h2, ?_, e2⟩
  have hl : cLen (flat w ++ 0 :: junk) = (flat w).length := cLen_flat _ (flat_nz hg) junk
  have hle := Utf8.flat_length w
  have hpos := List.length_pos_iff.2 hw
  unfold findAll
  rw [hl, if_neg (by omega), h1]
  simp [e1]

example : findAll noAlnum bPlus [98, 97, 98, 98, 0] = some (some [[98], [98, 98]]) := by decide +kernel

end Verif.Re
