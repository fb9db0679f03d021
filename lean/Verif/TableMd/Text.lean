import Verif.TableMd.Shape

/-!
# The text as a whole
-/

namespace Verif.TableMd
open Verif Verif.Table
open Verif.Parser.Scan (join split)

/-- The lines with their ends; `f` is what happens to the last one. -/
def ends (cr : Bool) (f : Bytes → Bytes) : List Bytes → List Bytes
  | [] => []
  | [l] => [f l]
  | l :: ls => (l ++ if cr then [13] else []) :: ends cr f ls

theorem ends_cons (cr : Bool) (f : Bytes → Bytes) (l k : Bytes) (ls : List Bytes) :
    ends cr f (l :: k :: ls) = (l ++ if cr then [13] else []) :: ends cr f (k :: ls) := rfl

theorem ends_ne (cr : Bool) (f : Bytes → Bytes) {ls : List Bytes} (h : ls ≠ []) : ends cr f ls ≠ [] := by
  cases ls with
  | nil => exact absurd rfl h
  | cons l ls => cases ls <;> simp [ends]

theorem join_cons (d : Bytes) (p : Bytes) {ps : List Bytes} (h : ps ≠ []) : join d (p :: ps) = p ++ d ++ join d ps := by
  cases ps with
  | nil => exact absurd rfl h
  | cons => rfl

theorem flat_eq (d : Bytes) : ∀ {ls : List Bytes}, ls ≠ [] → ls.flatMap (· ++ d) = join d ls ++ d
  | [], h => absurd rfl h
  | [l], _ => by simp [join]
  | l :: k :: ls, _ => by
    rw [List.flatMap_cons, flat_eq d (by simp), join_cons d l (by simp)]
    simp

theorem join_ends (fl : MFlags) : ∀ ls : List Bytes, join (ending fl) ls = join [10] (ends fl.win id ls)
  | [] => rfl
  | [l] => rfl
  | l :: k :: ls => by
    rw [ends_cons, join_cons _ _ (ends_ne _ _ (by simp)), join_cons _ _ (by simp), join_ends fl (k :: ls)]
    unfold ending
    cases fl.win <;> simp

theorem join_last (d : Bytes) : ∀ {ls : List Bytes} {l : Bytes}, ls.getLast? = some l → l ≠ [] → (join d ls).getLast? = l.getLast?
  | [], _, h, _ => by simp at h
  | [k], l, h, _ => by
    simp at h
    subst h
    rfl
  | k :: m :: ls, l, h, hl => by
    have h' : (m :: ls).getLast? = some l := by simpa using h
    rw [join_cons d k (by simp), List.getLast?_append, join_last d h' hl]
    cases e : l.getLast? with
    | none => exact absurd (List.getLast?_eq_none_iff.mp e) hl
    | some => rfl

theorem ends_rtrim (cr : Bool) : ∀ {ls : List Bytes} {l : Bytes}, ls.getLast? = some l → rtrim l ≠ [] →
    rtrim (join [10] (ends cr id ls)) = join [10] (ends cr rtrim ls) ∧ join [10] (ends cr rtrim ls) ≠ []
  | [], _, h, _ => by simp at h
  | [k], l, h, hl => by
    simp at h
    subst h
    exact ⟨rfl, hl⟩
  | k :: m :: ls, l, h, hl => by
    have h' : (m :: ls).getLast? = some l := by simpa using h
    obtain ⟨h1, h2⟩ := ends_rtrim cr h' hl
    rw [ends_cons, ends_cons, join_cons _ _ (ends_ne _ _ (by simp)), join_cons _ _ (ends_ne _ _ (by simp)),
      rtrim_append _ (by rw [h1]; exact h2), h1]
    refine ⟨rfl, fun e => ?_⟩
    simp at e

theorem ends_noNl (cr : Bool) : ∀ {ls : List Bytes}, (∀ l ∈ ls, (10 : UInt8) ∉ l) → ∀ p ∈ ends cr rtrim ls, (10 : UInt8) ∉ p
  | [], _, p, hp => by simp [ends] at hp
  | [k], h, p, hp => by
    rw [ends, List.mem_singleton] at hp
    subst hp
    exact fun hm => h k (by simp) (end_rtrim.sub (by decide) hm)
  | k :: m :: ls, h, p, hp => by
    rw [ends_cons] at hp
    rcases List.mem_cons.mp hp with rfl | hp
    · intro hm
      rcases List.mem_append.mp hm with hm | hm
      · exact h k (by simp) hm
      · cases cr <;> simp at hm
    · exact ends_noNl cr (ls := m :: ls) (fun l hl => h l (List.mem_cons_of_mem _ hl)) p hp

theorem ends_last (cr : Bool) : ∀ {ls : List Bytes} {l : Bytes}, ls.getLast? = some l → (ends cr rtrim ls).getLast? = some (rtrim l)
  | [], _, h => by simp at h
  | [k], l, h => by
    simp at h
    subst h
    rfl
  | k :: m :: ls, l, h => by
    have h' : (m :: ls).getLast? = some l := by simpa using h
    rw [ends_cons, List.getLast?_cons, ends_last cr h']
    rfl

/-- What is written, taken apart into lines again. -/
theorem text_split (fl : MFlags) {ls : List Bytes} {l : Bytes} (hl : ls.getLast? = some l) (h1 : rtrim l ≠ [])
    (h2 : ∀ l ∈ ls, (10 : UInt8) ∉ l) (h3 : ∀ c, (join [10] (ends fl.win id ls)).head? = some c → Chr.isSpace c = false) :
    split (rtrim (ltrim (join [10] (ends fl.win id ls)))) [10] 0 false false = some (some (ends fl.win rtrim ls)) := by
  have h0 : ls ≠ [] := by intro e; rw [e] at hl; simp at hl
  have e : ltrim (join [10] (ends fl.win id ls)) = join [10] (ends fl.win id ls) := dropWhile_tight h3
  rw [e, (ends_rtrim fl.win hl h1).1, split_eq (ends_ne _ _ h0) (ends_noNl _ h2), ends_last _ hl]
  rw [if_neg (by intro e; exact h1 (Option.some.inj e))]

theorem trim_last {b : Bytes} (fl : MFlags) (h : b.getLast? ≠ some 13) :
    (let b' := (b ++ ending fl).take ((b ++ ending fl).length - 1)
     if b'[b'.length - 1]? = some 13 then b'.take (b'.length - 1) else b') = b := by
  unfold ending
  cases fl.win with
  | false =>
    have : (b ++ [(10 : UInt8)]).take ((b ++ [(10 : UInt8)]).length - 1) = b := by simp
    simp only [Bool.false_eq_true, if_false, this]
    rw [if_neg]
    rw [← List.getLast?_eq_getElem?]
    exact h
  | true =>
    have e : (b ++ [(13 : UInt8), 10]).take ((b ++ [(13 : UInt8), 10]).length - 1) = b ++ [13] := by
      rw [show b ++ [(13 : UInt8), 10] = (b ++ [13]) ++ [10] by simp, List.length_append (bs := [10]), List.length_singleton,
        Nat.add_sub_cancel, List.take_left]
    simp only [if_true, e]
    rw [← List.getLast?_eq_getElem?, List.getLast?_concat, if_pos rfl, List.length_append, List.length_singleton, Nat.add_sub_cancel,
      List.take_left]

theorem writeMd_eq {t : Tbl} (fl : MFlags) (hc : t.cols.length ≠ 0) (hr : t.rows.length ≠ 0) {l : Bytes}
    (hl : ((linesOf t fl).map (line fl)).getLast? = some l) (h0 : l ≠ []) (h1 : l.getLast? ≠ some 13) :
    writeMd t fl = some (join [10] (ends fl.win id ((linesOf t fl).map (line fl)))) := by
  have hne : (linesOf t fl).map (line fl) ≠ [] := by intro e; rw [e] at hl; simp at hl
  have e : ((linesOf t fl).flatMap fun l => line fl l ++ ending fl) = join (ending fl) ((linesOf t fl).map (line fl)) ++ ending fl := by
    rw [← flat_eq _ hne, List.flatMap_map]
  unfold writeMd
  rw [if_neg (by omega), e]
  have hcr : (join (ending fl) ((linesOf t fl).map (line fl))).getLast? ≠ some 13 := by rw [join_last _ hl h0]; exact h1
  rw [← join_ends]
  exact congrArg some (trim_last fl hcr)

end Verif.TableMd
