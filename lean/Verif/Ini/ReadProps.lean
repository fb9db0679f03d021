import Verif.Ini.Read
/- C109: reading an INI file. -/
namespace Verif.Ini
open Verif.Chr Verif.Str

/-! ## No access outside the arrays -/

/-- The settings for which the two loops agree: no quotes, quotes that are doubled, or an escape character of its own. -/
def Agreed (st : Settings) : Prop := st.quote = 0 ∨ st.quote = st.escape ∨ (st.escape ≠ 0 ∧ st.escape ≠ st.delim)

theorem walk_same {st : Settings} (ha : Agreed st) (s : List UInt8) (z : Bool) (p : Option UInt8) (onq onc : Bool) (cur : List UInt8) :
    ∀ p', (∀ onq onc c n, step st p onq onc c n = step st p' onq onc c n) → walk st z s p onq onc cur = walk st true s p' onq onc cur := by
  fun_induction walk st z s p onq onc cur with
  | case1 => intro p' _; unfold walk; rfl
  | case2 => rename_i hc; intro p' _; unfold walk; rw [if_neg hc]
  | case3 c p onq onc cur onq' hq hd => intro p' hp; rw [hp] at hq; unfold walk; rw [hq]; simp only [if_pos hd]
  | case4 c p onq onc cur onq' hq hd => intro p' hp; rw [hp] at hq; unfold walk; rw [hq]; simp only [if_neg hd]
  | case5 c p onq onc cur hq => 
    intro p' hp; unfold walk; rw [← hp]
    split
    · rename_i h; exact absurd h (hq _)
    · rfl
  | case6 c d r p onq onc cur hq ih =>
    intro p' hp
    rw [ih (some d) (fun _ _ _ _ => rfl)]
    conv => rhs; unfold walk
    rw [← hp, hq]
  | case7 c d r p onq onc cur hq ih =>
    intro p' hp
    rw [ih (some c) (fun _ _ _ _ => rfl)]
    conv => rhs; unfold walk
    rw [← hp, hq]
  | case8 c d r p onq onc cur onq' hq hd ih =>
    intro p' hp
    have e : ∀ onq onc x n, step st (some (if z = true then 0 else c)) onq onc x n = step st (some (if true = true then 0 else c)) onq onc x n := by
      intro onq onc x n
      have hcd : c = st.delim := by have := hd.1; unfold ceq at this; simp at this; exact this.1
      unfold step
      by_cases h : st.quote ≠ 0 ∧ ceq x st.quote = true ∧ onc = false
      · rw [if_pos h, if_pos h]
        by_cases h2 : st.quote = st.escape
        · simp [h2]
        · rcases ha with h3 | h3 | h3
          · exact absurd h3 h.1
          · exact absurd h3 h2
          · have f1 : ceq 0 st.escape = false := ceq_false (Ne.symm h3.1)
            have f2 : ceq c st.escape = false := ceq_false (by rw [hcd]; exact Ne.symm h3.2)
            cases z <;> simp [f1, f2]
      · rw [if_neg h, if_neg h]
    rw [ih _ e]
    conv => rhs; unfold walk
    rw [← hp, hq]
    simp only [if_pos hd]
  | case9 c d r p onq onc cur onq' hq onc' hd ih =>
    intro p' hp
    rw [ih (some c) (fun _ _ _ _ => rfl)]
    conv => rhs; unfold walk
    rw [← hp, hq]
    simp only [if_neg hd]
    rfl

/-- The pieces of a text with the delimiters are the text. -/
theorem walk_join (st : Settings) (s : List UInt8) (z : Bool) (p : Option UInt8) (onq onc : Bool) (cur : List UInt8) :
    ∃ m, (walk st z s p onq onc cur).flatMap (fun l => l ++ [st.delim]) = cur ++ s ++ m ∧ (m = [] ∨ m = [st.delim]) := by
  fun_induction walk st z s p onq onc cur with
  | case1 => exact ⟨[], by simp, .inl rfl⟩
  | case2 => exact ⟨[st.delim], by simp, .inr rfl⟩
  | case3 c p onq onc cur onq' hq hd =>
    have hcd : c = st.delim := by have := hd.1; unfold ceq at this; simp at this; exact this.1
    exact ⟨[], by simp [hcd], .inl rfl⟩
  | case4 => exact ⟨[st.delim], by simp, .inr rfl⟩
  | case5 => exact ⟨[st.delim], by simp, .inr rfl⟩
  | case6 c d r p onq onc cur hq ih => obtain ⟨m, e, h⟩ := ih; exact ⟨m, by rw [e]; simp, h⟩
  | case7 c d r p onq onc cur hq ih => obtain ⟨m, e, h⟩ := ih; exact ⟨m, by rw [e]; simp, h⟩
  | case8 c d r p onq onc cur onq' hq hd ih =>
    have hcd : c = st.delim := by have := hd.1; unfold ceq at this; simp at this; exact this.1
    obtain ⟨m, e, h⟩ := ih
    exact ⟨m, by rw [List.flatMap_cons, e]; simp [hcd], h⟩
  | case9 c d r p onq onc cur onq' hq onc' hd ih => obtain ⟨m, e, h⟩ := ih; exact ⟨m, by rw [e]; simp, h⟩

/-- Splitting a text into lines never leaves the array, and nothing of the text gets lost: the lines with their ends are the text
(and an end for the last one).  Missing: an escape character that is zero or the end of a line, see `explode_fails`. -/
theorem lines_partial {st : Settings} (ha : Agreed st) (s : List UInt8) :
    ∃ ls, explode st s = some ls ∧ ∃ m, ls.flatMap (fun l => l ++ [st.delim]) = s ++ m ∧ (m = [] ∨ m = [st.delim]) := by
  unfold explode
  by_cases h : s = []
  · rw [if_pos h]; exact ⟨[], rfl, [], by simp [h], .inl rfl⟩
  · rw [if_neg h, if_pos]
    · obtain ⟨m, e, hm⟩ := walk_join st s true none false false []
      exact ⟨_, rfl, m, by simpa using e, hm⟩
    · rw [walk_same ha s false none false false [] none (fun _ _ _ _ => rfl)]

/-- One line: never outside an array. -/
theorem parseLine_some {st : Settings} (hc : st.comment ≠ st.escape) (l : List UInt8) : parseLine st l ≠ none := by
  unfold parseLine
  split
  · simp
  · split
    · simp
    · split
      · simp
      · unfold parseKv
        dsimp only
        split
        · simp
        · rename_i c r _
          split
          · simp
          · by_cases hr : r = []
            · subst hr; simp [explodeQ, kvOf]
            · obtain ⟨xs, e, _, _⟩ := explodeQ_partial st.comment st.quote st.escape 2 hc r hr
              rw [e]
              match xs with
              | [] => simp [kvOf]
              | [v] => simp [kvOf]
              | v :: c :: _ => simp [kvOf]

theorem readLines_some {st : Settings} (hc : st.comment ≠ st.escape) (ls : List (List UInt8)) (r : RState) : readLines st ls r ≠ none := by
  induction ls generalizing r with
  | nil => simp [readLines]
  | cons l ls ih =>
    unfold readLines
    have := parseLine_some hc l
    split
    · contradiction
    · simp
    · exact ih _

/-- Reading any text never leaves an array.  Missing: settings for which the loops disagree, see `explode_fails`. -/
theorem read_safe_partial {st : Settings} (ha : Agreed st) (hc : st.comment ≠ st.escape) (ign : Bool) (s : List UInt8) : read st ign s ≠ none := by
  unfold read
  split
  · simp
  · obtain ⟨ls, e, _⟩ := lines_partial ha s
    rw [e]
    simp only [ne_eq, Option.map_eq_none_iff]
    exact readLines_some hc ls _

/-- Reading a file gives the values that the lines stand for: what the calls for its keys, in their order, would have left
behind (adding to the values when repeated keys are collected, replacing them otherwise).  Missing: with blanks ignored, names with
two blanks next to each other, see `readKey_fails`; and settings whose characters coincide. -/
theorem read_partial {st : Settings} (hs : Sane st) (ign : Bool) (ls : List Line) (last : Option Line) (hl : ∀ l ∈ ls, l.good st) (hz : ∀ l ∈ last, l.good st)
    (hn : ∀ l ∈ ls ++ last.toList, l.core.named ign) (h0 : fileText st ls last ≠ []) :
    ∃ ini, read st ign (fileText st ls last) = some (some ini) ∧ ∀ k, Plain ign k →
      kvVals ini k = vals ign (nameOf ign k) (calls (decide (st.dup = .collect)) none (ls ++ last.toList)) ∧
      (kvHas ini k = true ↔ vals ign (nameOf ign k) (calls (decide (st.dup = .collect)) none (ls ++ last.toList)) ≠ []) := by
  have hll : ∀ l ∈ linesOf st ls last, l.good st ∧ l.core.named ign := by
    intro l h
    unfold linesOf at h
    rcases List.mem_append.1 h with h | h
    · exact ⟨hl l h, hn l (by simp [h])⟩
    · have : last = some l := by
        cases last with
        | none => simp at h
        | some x =>
          by_cases hx : x.text st = []
          · simp [Option.filter, hx] at h
          · simp [Option.filter, hx] at h; rw [h]
      exact ⟨hz l this, hn l (by simp [this])⟩
  have hcalls : ∀ c sec, calls c sec (linesOf st ls last) = calls c sec (ls ++ last.toList) := by
    intro c
    clear h0
    induction ls with
    | nil =>
      intro sec
      cases last with
      | none => rfl
      | some x =>
        by_cases hx : x.text st = []
        · have hb : x.core = .blank := by
            have h1 := hx
            unfold Line.text at h1
            have h2 : x.core.text st = [] := (List.append_eq_nil_iff.1 (List.append_eq_nil_iff.1 h1).1).2
            have hg := (hz x rfl).2.2
            cases hxc : x.core with
            | blank => rfl
            | comment t => rw [hxc] at h2; simp [Core.text] at h2
            | sect a n b c => rw [hxc] at h2; simp [Core.text] at h2
            | key k c => rw [hxc] at h2 hg; simp [Core.text] at h2; exact absurd h2.1 hg.1
            | pair k a b v c => rw [hxc] at h2; simp [Core.text] at h2
          simp [linesOf, Option.filter, hx, calls, hb]
        · simp [linesOf, Option.filter, hx]
    | cons l ls ih =>
      intro sec
      rw [linesOf_cons, List.cons_append]
      have ih := ih (fun l h => hl l (by simp [h])) (fun l h => hn l (by simp at h ⊢; exact .inr h)) (fun l h => hll l (by rw [linesOf_cons]; simp [h]))
      unfold calls
      split <;> simp [ih]
  obtain ⟨r, e1, e2⟩ := readLines_after hs (linesOf st ls last) (fun l h => (hll l h).1) (fun l h => (hll l h).2) (r := ⟨create ign, none, .root⟩) (sec := none) (after_create ign) rfl
  refine ⟨r.ini, ?_, ?_⟩
  · unfold read
    rw [if_neg h0, explode_file hs ls last hl hz]
    simp [e1]
  · rw [hcalls, List.nil_append] at e2
    intro k hk
    exact ⟨(e2.ask k hk).2.2.2, (e2.ask k hk).2.2.1⟩

/-! ## Cases -/

/-- Settings with quotes. -/
def quoting : Settings := { defaults with quote := 34, escape := 92 }

theorem quoting_sane : Sane quoting := ⟨by decide, by decide, by decide, by decide, by decide, by decide, by decide⟩

theorem defaults_sane : Sane defaults := ⟨by decide, by decide, by decide, by decide, by decide, by decide, by decide⟩

/-- A comment, a section and three lines with keys: one value with a line end, a quote and a comment character in it; a line with a comment behind the value; the last line without an end. -/
def sampleFile : List Line × Option Line :=
  ([⟨[32], .comment [99], []⟩, ⟨[], .sect [32] [83] [] (some ⟨[32], [], [120]⟩), [13]⟩, ⟨[], .pair [75, 45, 49] [32] [32] (.quoted [97, 34, 35, 10, 98]) none, []⟩, ⟨[9], .blank, []⟩],
   some ⟨[], .pair [107, 49] [] [] (.bare [120, 32, 121]) (some ⟨[32], [32], [99]⟩), [32]⟩)

example : (∀ l ∈ sampleFile.1, l.good quoting) ∧ (∀ l ∈ sampleFile.2, l.good quoting) := by
  constructor
  · intro l hl
    simp only [sampleFile, List.mem_cons, List.not_mem_nil, or_false] at hl
    rcases hl with rfl | rfl | rfl | rfl <;>
      simp [Line.good, Core.good, Spaces, Bare, Clean, Tail.good, Val.good, quoting, defaults] <;> decide
  · intro l hl
    simp only [sampleFile, Option.mem_some_iff] at hl
    rcases hl with rfl
    simp [Line.good, Core.good, Spaces, Bare, Clean, Tail.good, Val.good, quoting, defaults]
    decide

example : fileText quoting sampleFile.1 sampleFile.2 = [32, 35, 99, 10, 91, 32, 83, 93, 32, 35, 120, 13, 10, 75, 45, 49, 32, 61, 32, 34, 97, 92, 34, 35, 10, 98, 34, 10, 9, 10, 107, 49, 61, 120, 32, 121, 32, 35, 32, 99, 32] ∧
    vals true [115, 47, 107, 49] (calls true none (sampleFile.1 ++ sampleFile.2.toList)) = [some [97, 34, 35, 10, 98], some [120, 32, 121]] := by decide +kernel

example : Agreed defaults ∧ Agreed quoting ∧ quoting.comment ≠ quoting.escape := by unfold Agreed; decide

/-- A quote character without an escape character: the first loop counts two lines, the second one finds four. -/
theorem explode_fails : explode { defaults with quote := 34 } [10, 34, 10, 10, 10] = none := by decide +kernel

/-- Blanks ignored: the key as it stands in the file is not found. -/
theorem readKey_fails : ∃ ini, read defaults true [97, 32, 32, 98, 61, 49] = some (some ini) ∧ kvLen ini [97, 32, 32, 98] = 0 ∧ kvGet ini [97, 98] 0 = some (some [49]) :=
  ⟨_, rfl, by decide +kernel⟩

/-- `M_INI_DUPKVS_COMMENT` and `M_INI_DUPKVS_REMOVE` are documented as "first wins"; the last one does. -/
theorem firstWins_fails : ∀ d ∈ [Dup.comment, Dup.remove], ((read { defaults with dup := d } false [97, 61, 49, 10, 97, 61, 50, 10]).bind id).map (fun ini => kvVals ini [97]) =
    some [some [50]] := by decide +kernel

end Verif.Ini
