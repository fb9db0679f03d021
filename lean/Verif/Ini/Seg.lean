import Verif.Ini.Model
import Verif.Str.SplitProps
/- Pieces of text without an open quote, for the loops that look for a delimiter outside quotes. -/
namespace Verif.Ini
open Verif.Chr Verif.Str

/-- Going over a piece of text: from one state to another without meeting one of the characters `cut` outside quotes.  `n` is the
character behind the piece. -/
inductive Seg (q e : UInt8) (cut : UInt8 → Bool) (n : UInt8) : List UInt8 → Option UInt8 → Bool → Option UInt8 → Bool → Prop
  | nil (p : Option UInt8) (on : Bool) : Seg q e cut n [] p on p on
  | go {c : UInt8} {x : List UInt8} {p p' : Option UInt8} {on on1 on' : Bool} (h : qstep q e p on c (x.headD n) = .go on1) (hc : ¬ (cut c = true ∧ on1 = false))
      (t : Seg q e cut n x (some c) on1 p' on') : Seg q e cut n (c :: x) p on p' on'
  | skip {c : UInt8} {x : List UInt8} {p p' : Option UInt8} {on on' : Bool} (h : qstep q e p on c (x.headD n) = .skip)
      (t : Seg q e cut n x (some c) on p' on') : Seg q e cut n (c :: x) p on p' on'
  | skip2 {c d : UInt8} {x : List UInt8} {p p' : Option UInt8} {on on' : Bool} (h : qstep q e p on c d = .skip2)
      (t : Seg q e cut n x (some d) on p' on') : Seg q e cut n (c :: d :: x) p on p' on'

theorem Seg.append {q e : UInt8} {cut : UInt8 → Bool} {n m : UInt8} {x y : List UInt8} {p1 p2 p3 : Option UInt8} {o1 o2 o3 : Bool}
    (h : Seg q e cut m x p1 o1 p2 o2) (hm : m = y.headD n) (g : Seg q e cut n y p2 o2 p3 o3) : Seg q e cut n (x ++ y) p1 o1 p3 o3 := by
  subst hm
  induction h with
  | nil p on => exact g
  | @go c x p p' on on1 on' h hc t ih =>
    refine Seg.go ?_ hc (ih g)
    cases x with
    | nil => exact h
    | cons d x => exact h
  | @skip c x p p' on on' h t ih =>
    refine Seg.skip ?_ (ih g)
    cases x with
    | nil => exact h
    | cons d x => exact h
  | skip2 h t ih => exact Seg.skip2 h (ih g)

theorem Seg.mono {q e : UInt8} {cut cut' : UInt8 → Bool} {n : UInt8} {x : List UInt8} {p p' : Option UInt8} {on on' : Bool} (hc : ∀ c, cut' c = true → cut c = true)
    (h : Seg q e cut n x p on p' on') : Seg q e cut' n x p on p' on' := by
  induction h with
  | nil p on => exact .nil p on
  | go h hn t ih => exact .go h (fun e => hn ⟨hc _ e.1, e.2⟩) ih
  | skip h t ih => exact .skip h ih
  | skip2 h t ih => exact .skip2 h ih

/-- Text without quotes. -/
theorem Seg.plain {q e : UInt8} (hq : q < 128) {cut : UInt8 → Bool} (n : UInt8) (x : List UInt8) (hx : ∀ c ∈ x, cut c = false ∧ c ≠ q) (p : Option UInt8) :
    Seg q e cut n x p false (x.getLast?.or p) false := by
  induction x generalizing p with
  | nil => exact .nil p false
  | cons c x ih =>
    have h := hx c (by simp)
    refine .go (qstep_other hq h.2 p false _) (by rw [h.1]; simp) ?_
    have e1 : (c :: x).getLast?.or p = x.getLast?.or (some c) := by rw [List.getLast?_cons]; cases x.getLast? <;> rfl
    rw [e1]
    exact ih (fun c hc => hx c (by simp [hc])) (some c)

/-- Without a quote character nothing is a quote. -/
theorem Seg.noquote {e : UInt8} {cut : UInt8 → Bool} (n : UInt8) (x : List UInt8) (hx : ∀ c ∈ x, cut c = false) (p : Option UInt8) :
    Seg 0 e cut n x p false (x.getLast?.or p) false := by
  induction x generalizing p with
  | nil => exact .nil p false
  | cons c x ih =>
    have h := hx c (by simp)
    refine .go (on1 := false) (by unfold qstep; rw [if_neg (by simp)]) (by rw [h]; simp) ?_
    have e1 : (c :: x).getLast?.or p = x.getLast?.or (some c) := by rw [List.getLast?_cons]; cases x.getLast? <;> rfl
    rw [e1]
    exact ih (fun c hc => hx c (by simp [hc])) (some c)

theorem Seg.body_diff {q e : UInt8} (hq : q < 128) (he : e < 128) (q0 : q ≠ 0) (e0 : e ≠ 0) (hqe : q ≠ e) {cut : UInt8 → Bool} (n : UInt8) (s : List UInt8) (p : Option UInt8) :
    Seg q e cut n (escape q e s) p true (s.getLast?.or p) true := by
  induction s generalizing p with
  | nil => exact .nil p true
  | cons c s ih =>
    have hl : (c :: s).getLast?.or p = s.getLast?.or (some c) := by
      rw [List.getLast?_cons]; cases s.getLast? <;> rfl
    rw [hl]
    by_cases h : ceq c q = true ∨ ceq c e = true
    · have hh : escape q e (c :: s) = e :: c :: escape q e s := by
        conv => lhs; unfold escape
        rw [if_pos h]
      rw [hh]
      refine .go (qstep_other hq (Ne.symm hqe) p true _) (by simp) ?_
      by_cases hcq : c = q
      · subst hcq
        refine .skip ?_ (ih (some c))
        unfold qstep
        rw [if_pos ⟨q0, (ceq_iff c c hq).2 rfl⟩, if_neg (fun h => hqe h.1), if_pos ⟨e0, hqe, by simp [(ceq_iff e e he).2 rfl]⟩]
      · exact .go (qstep_other hq hcq _ true _) (by simp) (ih (some c))
    · have hh : escape q e (c :: s) = c :: escape q e s := by
        conv => lhs; unfold escape
        rw [if_neg h]
      have hcq : c ≠ q := fun hc => h (Or.inl ((ceq_iff c q hq).2 hc))
      rw [hh]
      exact .go (qstep_other hq hcq p true _) (by simp) (ih (some c))

theorem Seg.body_same {q : UInt8} (hq : q < 128) (q0 : q ≠ 0) {cut : UInt8 → Bool} (hcut : cut q = false) (n : UInt8) (hn : n ≠ q) (s : List UInt8) (p : Option UInt8) :
    ∃ p', Seg q q cut n (escape q q s ++ [q]) p true p' false := by
  induction s generalizing p with
  | nil =>
    exact ⟨some q, .go (on1 := false) (qstep_single hq q0 hn p true) (by rw [hcut]; simp) (.nil _ _)⟩
  | cons c s ih =>
    rw [escape_same q c hq]
    by_cases h : c = q
    · rw [if_pos h]
      obtain ⟨p', hp⟩ := ih (some q)
      exact ⟨p', .skip2 (qstep_double hq q0 p true) hp⟩
    · rw [if_neg h]
      obtain ⟨p', hp⟩ := ih (some c)
      exact ⟨p', .go (qstep_other hq h p true _) (by simp) hp⟩

/-- A quoted text, if the character in front of it does not hide the quote and the one behind it does not double it. -/
theorem Seg.quoted {q e : UInt8} (hq : q < 128) (he : e < 128) (q0 : q ≠ 0) (e0 : e ≠ 0) {cut : UInt8 → Bool} (hcut : cut q = false) (n : UInt8) (hn : n ≠ q) (s : List UInt8)
    (hs : q = e ∨ s.getLast? ≠ some e) (p : Option UInt8) (hp : p.any (ceq · e) = false) : ∃ p', Seg q e cut n ([q] ++ escape q e s ++ [q]) p false p' false := by
  by_cases hqe : q = e
  · subst hqe
    clear hs hp
    induction s generalizing p with
    | nil => exact ⟨some q, .skip2 (qstep_double hq q0 p false) (.nil _ _)⟩
    | cons c s ih =>
      rw [escape_same q c hq]
      by_cases h : c = q
      · rw [if_pos h]
        obtain ⟨p', hp⟩ := ih (some q)
        exact ⟨p', .skip2 (qstep_double hq q0 p false) hp⟩
      · rw [if_neg h]
        obtain ⟨p', hp⟩ := Seg.body_same hq q0 hcut n hn s (some c)
        refine ⟨p', .go (on1 := true) (qstep_single hq q0 (by simpa using h) p false) (by simp) ?_⟩
        exact .go (qstep_other hq h _ true _) (by simp) hp
  · have hl := hs.resolve_left hqe
    have hqq := (ceq_iff q q hq).2 rfl
    have open_ : ∀ n, qstep q e p false q n = .go true := by
      intro n
      unfold qstep
      rw [if_pos ⟨q0, hqq⟩, if_neg (fun h => hqe h.1), if_neg (by rw [hp]; simp)]; rfl
    have close : ∀ n, qstep q e (s.getLast?.or (some q)) true q n = .go false := by
      intro n
      unfold qstep
      rw [if_pos ⟨q0, hqq⟩, if_neg (fun h => hqe h.1), if_neg]
      · rfl
      · rintro ⟨_, _, h⟩
        cases hs : s.getLast? with
        | none => rw [hs] at h; simp only [Option.none_or, Option.any_some] at h; exact hqe ((ceq_iff q e he).1 h)
        | some x =>
          rw [hs] at h hl
          simp only [Option.some_or, Option.any_some] at h
          exact hl (by rw [(ceq_iff x e he).1 h])
    refine ⟨some q, ?_⟩
    have e1 : [q] ++ escape q e s ++ [q] = q :: (escape q e s ++ [q]) := by simp
    rw [e1]
    refine .go (on1 := true) (open_ _) (by simp) ?_
    exact (Seg.body_diff hq he q0 e0 hqe q s (some q)).append rfl (.go (on1 := false) (close _) (by rw [hcut]; simp) (.nil _ _))

/-! ## The loops -/

theorem fillQ_seg {d q e n : UInt8} {max slots : Nat} {x : List UInt8} {p p' : Option UInt8} {on on' : Bool} {rest : List UInt8} (h : Seg q e (ceq · d) n x p on p' on') (hr : rest.headD 0 = n)
    (out : List (List UInt8)) (cur : List UInt8) : fillQ d q e max slots (x ++ rest) p on out cur = fillQ d q e max slots rest p' on' out (cur ++ x) := by
  subst hr
  induction h generalizing cur with
  | nil p on => simp
  | @go c x p p' on on1 on' h hc t ih =>
    have hh : (x ++ rest).headD 0 = x.headD (rest.headD 0) := by cases x <;> rfl
    rw [← hh] at h
    have e1 : cur ++ c :: x = (cur ++ [c]) ++ x := by simp
    rw [e1, ← ih, List.cons_append]
    generalize x ++ rest = y at h
    cases y with
    | nil => unfold fillQ; simp only [List.headD_nil] at h; rw [h]; simp only [if_neg hc]
    | cons d' r =>
      conv => lhs; unfold fillQ
      simp only [List.headD_cons] at h; rw [h]; simp only [if_neg hc]
  | @skip c x p p' on on' h t ih =>
    have hh : (x ++ rest).headD 0 = x.headD (rest.headD 0) := by cases x <;> rfl
    rw [← hh] at h
    have e1 : cur ++ c :: x = (cur ++ [c]) ++ x := by simp
    rw [e1, ← ih, List.cons_append]
    generalize x ++ rest = y at h
    cases y with
    | nil => unfold fillQ; simp only [List.headD_nil] at h; rw [h]
    | cons d' r =>
      conv => lhs; unfold fillQ
      simp only [List.headD_cons] at h; rw [h]
  | @skip2 c d' x p p' on on' h t ih =>
    have e1 : cur ++ c :: d' :: x = (cur ++ [c, d']) ++ x := by simp
    rw [e1, ← ih, List.cons_append, List.cons_append]
    conv => lhs; unfold fillQ
    rw [h]

end Verif.Ini
