import Verif.Re.SubModel
import Verif.Re.SubSpec
import Verif.Re.Props
/-! Lemmas for `Verif.Re.SubProps`. -/
namespace Verif.Re
open Verif.Chr
open Verif.Utf8 (flat Good)

theorem isDig_iff (c : UInt8) : isDigit c = true ↔ IsDig c := by
  simp [isDigit, IsDig, UInt8.le_iff_toNat_le]

instance (c : UInt8) : Decidable (IsDig c) := by unfold IsDig; infer_instance

/-- What the number parser sees in a byte. -/
def byteFacts (c : UInt8) : Bool :=
  (isDigit c → Num.digit c = dig c ∧ dig c < 10 ∧ isSpace c = false ∧ c ≠ 45 ∧ c ≠ 43 ∧ c ≠ 0) ∧
    (¬ isDigit c → 10 ≤ Num.digit c) ∧ (isSpace c = true ↔ c ∈ [32, 9, 10, 11, 12, 13])

theorem byteFacts_all : ∀ i : Fin 256, byteFacts (UInt8.ofNat i.val) = true := by decide +kernel

theorem byte_facts (c : UInt8) : byteFacts c = true := by
  have := byteFacts_all ⟨c.toNat, c.toNat_lt⟩
  simpa using this

theorem digit_facts {c : UInt8} (h : IsDig c) :
    Num.digit c = dig c ∧ dig c < 10 ∧ isSpace c = false ∧ c ≠ 45 ∧ c ≠ 43 ∧ c ≠ 0 := by
  have := byte_facts c
  simp only [byteFacts, decide_eq_true_eq] at this
  exact this.1 ((isDig_iff c).2 h)

theorem other_facts {c : UInt8} (h : ¬ IsDig c) : 10 ≤ Num.digit c := by
  have := byte_facts c
  simp only [byteFacts, decide_eq_true_eq] at this
  exact this.2.1 (fun h' => h ((isDig_iff c).1 h'))

theorem space_facts {c : UInt8} (h : c ∉ [32, 9, 10, 11, 12, 13, 43, 45]) : isSpace c = false ∧ c ≠ 45 ∧ c ≠ 43 := by
  have := byte_facts c
  simp only [byteFacts, decide_eq_true_eq] at this
  refine ⟨?_, ?_, ?_⟩
  · cases hs : isSpace c with
    | false => rfl
    | true =>
      have := this.2.2.1 hs
      exfalso
      apply h
      simp only [List.mem_cons, List.not_mem_nil, or_false] at this
      rcases this with rfl | rfl | rfl | rfl | rfl | rfl <;> decide
  · rintro rfl; exact h (by decide)
  · rintro rfl; exact h (by decide)

theorem read_two {a b : UInt8} (r : List UInt8) (ha : IsDig a) (hb : IsDig b) :
    readUint (a :: b :: r) 2 = some (some (10 * dig a + dig b, r)) := by
  obtain ⟨a1, a2, a3, a4, a5, a6⟩ := digit_facts ha
  obtain ⟨b1, b2, b3, b4, b5, b6⟩ := digit_facts hb
  have e1 : (10 * dig a + dig b) % Num.w64 = 10 * dig a + dig b := Nat.mod_eq_of_lt (by unfold Num.w64; omega)
  have e2 : dig a % Num.w64 = dig a := Nat.mod_eq_of_lt (by unfold Num.w64; omega)
  have e3 : ¬ 10 ≤ dig a := by omega
  have e4 : ¬ 10 ≤ dig b := by omega
  have e5 : ¬ (10 * dig a + dig b < dig a) := by omega
  simp [readUint, Num.toUint64Ex, Num.prep, Num.eatWs, Num.sign, Num.autoBase, Num.toUint64Int, Num.u64Loop, a3, a4, a5, a6, a1, b1, b6,
    Nat.mul_comm (dig a) 10, e1, e2, e3, e4, e5]

theorem read_one2 {a b : UInt8} (r : List UInt8) (ha : IsDig a) (hb : ¬ IsDig b) :
    readUint (a :: b :: r) 2 = some (some (dig a, b :: r)) := by
  obtain ⟨a1, a2, a3, a4, a5, a6⟩ := digit_facts ha
  have hb1 := other_facts hb
  have e2 : dig a % Num.w64 = dig a := Nat.mod_eq_of_lt (by unfold Num.w64; omega)
  have e3 : ¬ 10 ≤ dig a := by omega
  by_cases h0 : b = 0
  · subst h0
    simp [readUint, Num.toUint64Ex, Num.prep, Num.eatWs, Num.sign, Num.autoBase, Num.toUint64Int, Num.u64Loop, a3, a4, a5, a6, a1, e2, e3]
  · simp [readUint, Num.toUint64Ex, Num.prep, Num.eatWs, Num.sign, Num.autoBase, Num.toUint64Int, Num.u64Loop, a3, a4, a5, a6, a1, e2, e3,
      hb1, h0]

theorem read_single (a : UInt8) : readUint [a] 2 = some none := rfl

theorem read_nil (n : Nat) : readUint [] n = some none := by simp [readUint]

theorem read_one {a : UInt8} (r : List UInt8) (ha : IsDig a) : readUint (a :: r) 1 = some (some (dig a, r)) := by
  obtain ⟨a1, a2, a3, a4, a5, a6⟩ := digit_facts ha
  have e2 : dig a % Num.w64 = dig a := Nat.mod_eq_of_lt (by unfold Num.w64; omega)
  have e3 : ¬ 10 ≤ dig a := by omega
  simp [readUint, Num.toUint64Ex, Num.prep, Num.eatWs, Num.sign, Num.autoBase, Num.toUint64Int, Num.u64Loop, a3, a4, a5, a6, a1, e2, e3]

theorem read_no {a : UInt8} (r : List UInt8) (ha : ¬ IsDig a) (hs : a ∉ [32, 9, 10, 11, 12, 13, 43, 45]) (n : Nat) (hn : n ≠ 0) :
    readUint (a :: r) n = some none := by
  obtain ⟨h1, h2, h3⟩ := space_facts hs
  have h4 := other_facts ha
  unfold readUint
  split
  · rfl
  · obtain ⟨k, rfl⟩ : ∃ k, n = k + 1 := ⟨n - 1, by omega⟩
    by_cases h0 : a = 0
    · subst h0
      simp [Num.toUint64Ex, Num.prep, Num.eatWs, Num.sign, Num.autoBase, Num.toUint64Int, Num.u64Loop, isSpace]
    · simp [Num.toUint64Ex, Num.prep, Num.eatWs, Num.sign, Num.autoBase, Num.toUint64Int, Num.u64Loop, h1, h2, h3, h4, h0]

theorem refNum_two {a b : UInt8} (r : List UInt8) (ha : IsDig a) (hb : IsDig b) :
    refNum (a :: b :: r) = some (some (10 * dig a + dig b, r)) := by simp [refNum, read_two r ha hb]

theorem refNum_one {a : UInt8} (r : List UInt8) (ha : IsDig a) (hr : ∀ b, r.head? = some b → ¬ IsDig b) :
    refNum (a :: r) = some (some (dig a, r)) := by
  cases r with
  | nil => simp [refNum, read_single, read_one [] ha]
  | cons b r => simp [refNum, read_one2 r ha (hr b rfl)]

theorem refNum_no {a : UInt8} (r : List UInt8) (ha : ¬ IsDig a) (hs : a ∉ [32, 9, 10, 11, 12, 13, 43, 45]) :
    refNum (a :: r) = some none := by simp [refNum, read_no r ha hs]

theorem refNum_nil : refNum [] = some none := by simp [refNum, read_nil]

/-- A backslash is read as a reference exactly if it is one. -/
theorem ref_spec (r : List UInt8) (hn : Neat (92 :: r)) :
    (∃ v r', ref r = some (some (v, r')) ∧ IsRef (92 :: r) v r') ∨ (ref r = some none ∧ ∀ v r', ¬ IsRef (92 :: r) v r') := by
  cases r with
  | nil => exact .inr ⟨rfl, fun v r' h => by cases h⟩
  | cons c r =>
    by_cases hc : IsDig c
    · left
      have hd := (isDig_iff c).2 hc
      cases r with
      | nil => exact ⟨_, _, by rw [ref, if_pos hd, refNum_one _ hc (by simp)], .one hc (by simp)⟩
      | cons b r =>
        by_cases hb : IsDig b
        · exact ⟨_, _, by rw [ref, if_pos hd, refNum_two _ hc hb], .two hc hb⟩
        · have hr : ∀ x, (b :: r).head? = some x → ¬ IsDig x := by
            intro x hx
            simp only [List.head?_cons, Option.some.injEq] at hx
            rw [← hx]; exact hb
          exact ⟨_, _, by rw [ref, if_pos hd, refNum_one _ hc hr], .one hc hr⟩
    · have hd : ¬ isDigit c = true := fun h => hc ((isDig_iff c).1 h)
      rw [ref, if_neg hd]
      by_cases hg : c = 103
      · subst hg
        rw [if_pos rfl]
        have no : ∀ v r', IsRef (92 :: 103 :: r) v r' → ∃ x, r = 60 :: x := by
          intro v r' h
          cases h with
          | one ha _ => exact absurd ha hc
          | two ha _ => exact absurd ha hc
          | name1 _ => exact ⟨_, rfl⟩
          | name2 _ _ => exact ⟨_, rfl⟩
        cases r with
        | nil => exact .inr ⟨rfl, fun v r' h => by obtain ⟨x, hx⟩ := no v r' h; simp at hx⟩
        | cons d r =>
          by_cases hd60 : d = 60
          · subst hd60
            simp only [refG, ne_eq, not_true_eq_false, if_false]
            cases r with
            | nil =>
              rw [refNum_nil]
              exact .inr ⟨rfl, fun v r' h => by cases h with | one ha _ => exact hc ha | two ha _ => exact hc ha⟩
            | cons a r =>
              have hns := hn [] a r rfl
              by_cases ha : IsDig a
              · cases r with
                | nil =>
                  rw [refNum_one _ ha (by simp)]
                  exact .inr ⟨rfl, fun v r' h => by cases h with | one ha _ => exact hc ha | two ha _ => exact hc ha⟩
                | cons b r =>
                  by_cases hb : IsDig b
                  · rw [refNum_two _ ha hb]
                    cases r with
                    | nil =>
                      refine .inr ⟨rfl, fun v r' h => ?_⟩
                      cases h with
                      | one ha _ => exact hc ha
                      | two ha _ => exact hc ha
                      | name1 _ => revert hb; decide
                    | cons e r =>
                      by_cases he : e = 62
                      · subst he
                        exact .inl ⟨_, _, by simp [refClose], .name2 ha hb⟩
                      · refine .inr ⟨by simp [refClose, he], fun v r' h => ?_⟩
                        cases h with
                        | one ha _ => exact hc ha
                        | two ha _ => exact hc ha
                        | name1 _ => revert hb; decide
                        | name2 _ _ => exact he rfl
                  · have hr : ∀ x, (b :: r).head? = some x → ¬ IsDig x := by
                      intro x hx
                      simp only [List.head?_cons, Option.some.injEq] at hx
                      rw [← hx]; exact hb
                    rw [refNum_one _ ha hr]
                    by_cases he : b = 62
                    · subst he
                      exact .inl ⟨_, _, by simp [refClose], .name1 ha⟩
                    · refine .inr ⟨by simp [refClose, he], fun v r' h => ?_⟩
                      cases h with
                      | one ha _ => exact hc ha
                      | two ha _ => exact hc ha
                      | name1 _ => exact he rfl
                      | name2 _ h' => exact hb h'
              · rw [refNum_no _ ha hns]
                refine .inr ⟨rfl, fun v r' h => ?_⟩
                cases h with
                | one ha _ => exact hc ha
                | two ha _ => exact hc ha
                | name1 h' => exact ha h'
                | name2 h' _ => exact ha h'
          · refine .inr ⟨by simp [refG, hd60], fun v r' h => ?_⟩
            obtain ⟨x, hx⟩ := no v r' h
            simp only [List.cons.injEq] at hx
            exact hd60 hx.1
      · rw [if_neg hg]
        refine .inr ⟨rfl, fun v r' h => ?_⟩
        cases h with
        | one ha _ => exact hc ha
        | two ha _ => exact hc ha
        | name1 _ => exact hg rfl
        | name2 _ _ => exact hg rfl

theorem IsRef.suffix {t r : List UInt8} {v : Nat} (h : IsRef t v r) : ∃ p, t = 92 :: p ++ r ∧ p ≠ [] := by
  cases h with
  | @one a r ha hr => exact ⟨[a], rfl, by simp⟩
  | @two a b r ha hb => exact ⟨[a, b], rfl, by simp⟩
  | @name1 a r ha => exact ⟨[103, 60, a, 62], rfl, by simp⟩
  | @name2 a b r ha hb => exact ⟨[103, 60, a, b, 62], rfl, by simp⟩

theorem Neat.suffix {p t : List UInt8} (h : Neat (p ++ t)) : Neat t := by
  intro p' c q e
  exact h (p ++ p') c q (by rw [e, List.append_assoc])

theorem expands_plain {cap : Nat → List UInt8} {p t o : List UInt8} (hp : ∀ c ∈ p, c ≠ 92) (h : Expands cap t o) :
    Expands cap (p ++ t) (p ++ o) := by
  induction p with
  | nil => exact h
  | cons c p ih =>
    refine .char ?_ (ih (fun x hx => hp x (List.mem_cons_of_mem _ hx)))
    intro v r' hr
    obtain ⟨q, hq, -⟩ := hr.suffix
    simp only [List.cons_append, List.cons.injEq] at hq
    exact hp c (List.mem_cons_self ..) hq.1

theorem takeWhile_ne (t : List UInt8) : ∀ c ∈ t.takeWhile (· != 92), c ≠ 92 := by
  induction t with
  | nil => intro c hc; simp at hc
  | cons a t ih =>
    intro c hc
    by_cases ha : a = 92
    · rw [List.takeWhile_cons_of_neg (by simp [ha])] at hc; simp at hc
    · rw [List.takeWhile_cons_of_pos (by simp [ha])] at hc
      rcases List.mem_cons.1 hc with rfl | h
      · exact ha
      · exact ih c h

/-- The loop that expands a template. -/
theorem buildLoop_spec {s : List UInt8} {m : List Cap} {cap : Nat → List UInt8} (hcap : ∀ v, capText s m v = some (cap v)) :
    ∀ n rest buf, Neat rest → rest.length < n → ∃ o, buildLoop s m n rest buf = some (buf ++ o) ∧ Expands cap rest o := by
  intro n
  induction n with
  | zero => intro rest buf _ h; omega
  | succ n ih =>
    intro rest buf hn hl
    have hsplit := List.takeWhile_append_dropWhile (p := (· != (92 : UInt8))) (l := rest)
    have hpl := takeWhile_ne rest
    simp only [buildLoop]
    cases hd : rest.dropWhile (· != 92) with
    | nil =>
      refine ⟨rest, rfl, ?_⟩
      rw [hd, List.append_nil] at hsplit
      rw [hsplit] at hpl
      have := expands_plain (cap := cap) hpl .nil
      simpa using this
    | cons b r =>
      have hb : b = 92 := by
        have := List.head?_dropWhile_not (p := (· != (92 : UInt8))) (l := rest)
        rw [hd] at this
        simpa using this
      subst hb
      rw [hd] at hsplit
      have hn2 : Neat (92 :: r) := by rw [← hsplit] at hn; exact hn.suffix
      have hlen : r.length < rest.length := by
        have := congrArg List.length hsplit
        simp only [List.length_append, List.length_cons] at this
        omega
      simp only
      by_cases hr : r.isEmpty = true
      · rw [if_pos hr]
        have : r = [] := by simpa using hr
        subst this
        refine ⟨rest.takeWhile (· != 92) ++ [92], by simp, ?_⟩
        conv => arg 2; rw [← hsplit]
        refine expands_plain hpl (.char ?_ .nil)
        intro v r' h
        obtain ⟨q, hq, hq'⟩ := h.suffix
        simp only [List.cons_append, List.cons.injEq, true_and] at hq
        cases q with
        | nil => exact hq' rfl
        | cons _ _ => simp at hq
      · rw [if_neg hr]
        rcases ref_spec r hn2 with ⟨v, r', h1, h2⟩ | ⟨h1, h2⟩
        · simp only [h1, hcap]
          obtain ⟨q, hq, hq'⟩ := h2.suffix
          simp only [List.cons_append, List.cons.injEq, true_and] at hq
          have hn3 : Neat r' := by
            rw [hq] at hn2
            exact Neat.suffix (p := 92 :: q) (by simpa using hn2)
          have hl3 : r'.length ≤ r.length := by rw [hq, List.length_append]; omega
          obtain ⟨o, e1, e2⟩ := ih r' ((buf ++ rest.takeWhile (· != 92) ++ [92]).dropLast ++ cap v) hn3 (by omega)
          refine ⟨rest.takeWhile (· != 92) ++ (cap v ++ o), ?_, ?_⟩
          · rw [e1]; simp
          · conv => arg 2; rw [← hsplit]
            exact expands_plain hpl (.ref h2 e2)
        · simp only [h1]
          have hn3 : Neat r := Neat.suffix (p := [92]) hn2
          obtain ⟨o, e1, e2⟩ := ih r (buf ++ rest.takeWhile (· != 92) ++ [92]) hn3 (by omega)
          refine ⟨rest.takeWhile (· != 92) ++ (92 :: o), ?_, ?_⟩
          · rw [e1]; simp
          · conv => arg 2; rw [← hsplit]
            exact expands_plain hpl (.char h2 e2)

theorem IsRef.unique {t r r' : List UInt8} {v v' : Nat} (h : IsRef t v r) (h' : IsRef t v' r') : v = v' ∧ r = r' := by
  cases h with
  | one ha hr =>
    cases h' with
    | one _ _ => exact ⟨rfl, rfl⟩
    | two _ hb => exact absurd hb (hr _ rfl)
    | name1 _ => exact absurd ha (by decide)
    | name2 _ _ => exact absurd ha (by decide)
  | two ha hb =>
    cases h' with
    | one _ hr => exact absurd hb (hr _ rfl)
    | two _ _ => exact ⟨rfl, rfl⟩
    | name1 _ => exact absurd ha (by decide)
    | name2 _ _ => exact absurd ha (by decide)
  | name1 ha =>
    cases h' with
    | one h1 _ => exact absurd h1 (by decide)
    | two h1 _ => exact absurd h1 (by decide)
    | name1 _ => exact ⟨rfl, rfl⟩
    | name2 _ h2 => exact absurd h2 (by decide)
  | name2 ha hb =>
    cases h' with
    | one h1 _ => exact absurd h1 (by decide)
    | two h1 _ => exact absurd h1 (by decide)
    | name1 _ => exact absurd hb (by decide)
    | name2 _ _ => exact ⟨rfl, rfl⟩

theorem Expands.unique {cap : Nat → List UInt8} {t o o' : List UInt8} (h : Expands cap t o) (h' : Expands cap t o') : o = o' := by
  induction h generalizing o' with
  | nil =>
    cases h' with
    | nil => rfl
    | ref h _ => cases h
  | ref h ho ih =>
    cases h' with
    | nil => cases h
    | ref h2 ho2 =>
      obtain ⟨rfl, rfl⟩ := h.unique h2
      rw [ih ho2]
    | char h2 _ => exact absurd h (h2 _ _)
  | char h ho ih =>
    cases h' with
    | ref h2 _ => exact absurd h2 (h _ _)
    | char _ ho2 => rw [ih ho2]

end Verif.Re
