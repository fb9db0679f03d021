import Verif.Str.Props
/- Splitting and joining strings, replacing parts of them. -/
namespace Verif.Str
open Verif.Chr (isSpace)

/-- The sections with the delimiter between them. -/
def join (d : List UInt8) : List (List UInt8) → List UInt8
  | [] => []
  | [x] => x
  | x :: y :: xs => x ++ d ++ join d (y :: xs)

theorem join_cons (d x : List UInt8) {xs : List (List UInt8)} (h : xs ≠ []) : join d (x :: xs) = x ++ d ++ join d xs := by
  cases xs with
  | nil => exact absurd rfl h
  | cons y ys => rfl

/-! ### Splitting -/

theorem countDelim_eq (d : UInt8) (s : List UInt8) : ∀ n, countDelim d s n = n + s.count d := by
  induction s with
  | nil => intro n; rfl
  | cons c s ih =>
    intro n
    unfold countDelim
    rw [ih, List.count_cons]
    by_cases h : c = d
    · simp [h]; omega
    · simp [h]

theorem explodeLoop_spec (d : UInt8) (slots : Nat) (s : List UInt8) : ∀ (out : List (List UInt8)) (cur : List UInt8),
    out.length + s.count d < slots → d ∉ cur →
    ∃ xs, explodeLoop d slots s out cur = some (out ++ xs) ∧ (∀ x ∈ xs, d ∉ x) ∧ xs ≠ [] ∧ join [d] xs = cur ++ s ∧ xs.length = s.count d + 1 := by
  induction s with
  | nil =>
    intro out cur _ hc
    exact ⟨[cur], rfl, by simpa using hc, by simp, by simp [join], rfl⟩
  | cons c s ih =>
    intro out cur hl hc
    unfold explodeLoop
    rw [List.count_cons] at hl
    by_cases h : c = d
    · rw [if_neg (by simpa using h), if_neg (by simp [h] at hl; omega)]
      obtain ⟨xs, e, h1, h2, h3, h4⟩ := ih (out ++ [cur]) [] (by simp [h] at hl; simp; omega) (by simp)
      refine ⟨cur :: xs, by rw [e]; simp, by simpa [hc] using h1, by simp, ?_, by rw [List.length_cons, h4, List.count_cons]; simp [h]⟩
      rw [join_cons _ _ h2, h3, h]; simp
    · rw [if_pos h]
      obtain ⟨xs, e, h1, h2, h3, h4⟩ := ih out (cur ++ [c]) (by simp [h] at hl; exact hl) (by simp [hc]; exact fun e => h e.symm)
      exact ⟨xs, e, h1, h2, by rw [h3]; simp, by rw [h4, List.count_cons]; simp [h]⟩

/-- Splitting at a delimiter never leaves the arrays; the parts are free of the delimiter, and with the delimiter between
them they are the string. -/
theorem explode_correct (d : UInt8) (s : List UInt8) (hs : s ≠ []) (h0 : 0 ∉ s) :
    ∃ xs, explode d s = some xs ∧ (∀ x ∈ xs, d ∉ x) ∧ join [d] xs = s ∧ xs.length = s.count d + 1 := by
  unfold explode
  rw [if_neg]
  · rw [countDelim_eq]
    obtain ⟨xs, e, h1, h2, h3, h4⟩ := explodeLoop_spec d (1 + s.count d) s [] [] (by rw [List.length_nil]; omega) (by simp)
    exact ⟨xs, e, h1, h3, h4⟩
  · cases s with
    | nil => exact absurd rfl hs
    | cons c s =>
      simp only [List.head?_cons, Option.some.injEq, reduceCtorEq, false_or]
      rintro rfl; simp at h0

/-- There is only one such list of parts. -/
theorem parts_unique (d : UInt8) : ∀ (xs ys : List (List UInt8)), xs ≠ [] → ys ≠ [] → (∀ x ∈ xs, d ∉ x) → (∀ y ∈ ys, d ∉ y) → join [d] xs = join [d] ys → xs = ys := by
  have split (x y a b : List UInt8) (hx : d ∉ x) (hy : d ∉ y) (e : x ++ d :: a = y ++ d :: b) : x = y ∧ a = b := by
    induction x generalizing y with
    | nil =>
      cases y with
      | nil => simpa using e
      | cons c y => simp at e; simp at hy; exact absurd e.1 hy.1
    | cons c x ih =>
      cases y with
      | nil => simp at e; simp at hx; exact absurd e.1.symm hx.1
      | cons c' y =>
        simp only [List.cons_append, List.cons.injEq] at e
        have := ih y (fun h => hx (by simp [h])) (fun h => hy (by simp [h])) e.2
        exact ⟨by rw [e.1, this.1], this.2⟩
  intro xs
  induction xs with
  | nil => intro ys h; exact absurd rfl h
  | cons x xs ih =>
    intro ys _ hy h1 h2 e
    cases ys with
    | nil => exact absurd rfl hy
    | cons y ys =>
      have hx := h1 x (by simp)
      have hy' := h2 y (by simp)
      cases xs with
      | nil =>
        cases ys with
        | nil => simpa [join] using e
        | cons z zs =>
          rw [join_cons [d] y (by simp : z :: zs ≠ [])] at e
          have e : x = y ++ [d] ++ join [d] (z :: zs) := e
          rw [e] at hx
          simp at hx
      | cons w ws =>
        rw [join_cons [d] x (by simp : w :: ws ≠ [])] at e
        cases ys with
        | nil =>
          have e : x ++ [d] ++ join [d] (w :: ws) = y := e
          rw [← e] at hy'
          simp at hy'
        | cons z zs =>
          rw [join_cons [d] y (by simp : z :: zs ≠ [])] at e
          simp only [List.append_assoc, List.singleton_append] at e
          obtain ⟨e1, e2⟩ := split _ _ _ _ hx hy' e
          rw [e1, ih (z :: zs) (by simp) (by simp) (fun x h => h1 x (by simp [h])) (fun y h => h2 y (by simp [h])) e2]

/-- So joined parts are found again. -/
theorem explode_join (d : UInt8) (xs : List (List UInt8)) (hd : ∀ x ∈ xs, d ∉ x) (h0 : 0 ∉ join [d] xs) (hs : join [d] xs ≠ []) : explode d (join [d] xs) = some xs := by
  have hx : xs ≠ [] := by rintro rfl; exact hs rfl
  obtain ⟨ys, e, h1, h2, h3⟩ := explode_correct d _ hs h0
  rw [e, parts_unique d ys xs (by rintro rfl; exact hs h2.symm) hx h1 hd h2]

/-- Binary data that begins with a zero byte is not split at all, although its length is given. -/
theorem explode_zero : explode 44 [0, 44, 97] = some [] := by decide

example : explode 44 [97, 44, 44, 98] = some [[97], [], [98]] := by decide

/-! ### Splitting with quotes -/

theorem push_ok {slots : Nat} {out : List (List UInt8)} {x : List UInt8} (h : out.length < slots) : push slots out x = some (out ++ [x]) := if_neg (by omega)

theorem countQ_mono (d q e : UInt8) (max : Nat) (s : List UInt8) (prev : Option UInt8) (on : Bool) (num : Nat) : num ≤ countQ d q e max s prev on num := by
  fun_induction countQ d q e max s prev on num <;> grind

/-- The two passes agree about the character before a quote. -/
def PrevOk (e : UInt8) (p p' : Option UInt8) : Prop := p.any (ceq · e) = p'.any (ceq · e)

theorem qstep_prev {e : UInt8} {p p' : Option UInt8} (h : PrevOk e p p') (q : UInt8) (on : Bool) (c n : UInt8) : qstep q e p on c n = qstep q e p' on c n := by
  unfold qstep; rw [h]

theorem prev_delim {d e c : UInt8} (hde : d ≠ e) (hc : ceq c d = true) (h0 : e ≠ 0) : PrevOk e (some c) (some 0) := by
  unfold ceq at hc
  simp only [decide_eq_true_eq] at hc
  simp only [PrevOk, Option.any_some, ceq]
  have h1 : c ≠ e := by rw [hc.1]; exact hde
  simp [h1, h0.symm]

theorem qstep_zero {p p' : Option UInt8} (q : UInt8) (on : Bool) (c n : UInt8) : qstep q 0 p on c n = qstep q 0 p' on c n := by
  unfold qstep; simp

theorem qstep_same {d e c : UInt8} (hde : d ≠ e) (hc : ceq c d = true) (q : UInt8) (on : Bool) (x n : UInt8) : qstep q e (some c) on x n = qstep q e (some 0) on x n := by
  by_cases h0 : e = 0
  · subst h0; exact qstep_zero q on x n
  · exact qstep_prev (prev_delim hde hc h0) q on x n

/-- The neighbours before the position matter only through `qstep`. -/
def Agree (q e : UInt8) (p p' : Option UInt8) : Prop := ∀ on c n, qstep q e p on c n = qstep q e p' on c n

theorem fillQ_spec (d q e : UInt8) (max : Nat) (hde : d ≠ e) (s : List UInt8) (prev : Option UInt8) (on : Bool) (num : Nat) :
    ∀ (p' : Option UInt8) (slots : Nat) (out : List (List UInt8)) (cur : List UInt8), Agree q e prev p' → out.length = num →
    countQ d q e max s prev on num < slots →
    ∃ xs, fillQ d q e max slots s p' on out cur = some (out ++ xs) ∧ xs ≠ [] ∧ join [d] xs = cur ++ s ∧ (out ++ xs).length = countQ d q e max s prev on num + 1 := by
  fun_induction countQ d q e max s prev on num with
  | case1 prev on num =>
    intro p' slots out cur _ hn hc
    exact ⟨[cur], push_ok (by omega), by simp, by simp [join], by simp [hn]⟩
  | case2 c prev on num on' hq hd =>
    intro p' slots out cur ha hn hc
    unfold fillQ
    rw [← ha on c 0, hq]
    simp only [if_pos hd]
    rw [push_ok (by omega), Option.bind_some, push_ok (by simp; omega)]
    have hcd : c = d := by have := hd.1; unfold ceq at this; simp at this; exact this.1
    exact ⟨[cur, []], by simp, by simp, by simp [join, hcd], by simp [hn]⟩
  | case3 c prev on num on' hq hd =>
    intro p' slots out cur ha hn hc
    unfold fillQ
    rw [← ha on c 0, hq]
    simp only [if_neg hd]
    exact ⟨[cur ++ [c]], push_ok (by omega), by simp, by simp [join], by simp [hn]⟩
  | case4 c prev on num hq =>
    intro p' slots out cur ha hn hc
    unfold fillQ
    rw [← ha on c 0]
    split
    · rename_i on' h; exact absurd h (hq on')
    · exact ⟨[cur ++ [c]], push_ok (by omega), by simp, by simp [join], by simp [hn]⟩
  | case5 c c' r prev on num hq ih =>
    intro p' slots out cur ha hn hc
    unfold fillQ
    rw [← ha on c c', hq]
    obtain ⟨xs, e1, e2, e3, e4⟩ := ih (some c') slots out (cur ++ [c, c']) (fun _ _ _ => rfl) hn hc
    exact ⟨xs, e1, e2, by rw [e3]; simp, e4⟩
  | case6 c c' r prev on num hq ih =>
    intro p' slots out cur ha hn hc
    unfold fillQ
    rw [← ha on c c', hq]
    obtain ⟨xs, e1, e2, e3, e4⟩ := ih (some c) slots out (cur ++ [c]) (fun _ _ _ => rfl) hn hc
    exact ⟨xs, e1, e2, by rw [e3]; simp, e4⟩
  | case7 c c' r prev on num on' hq hd hm =>
    intro p' slots out cur ha hn hc
    unfold fillQ
    rw [← ha on c c', hq]
    have hcd : c = d := by have := hd.1; unfold ceq at this; simp at this; exact this.1
    simp only [if_pos hd]
    rw [push_ok (by omega), Option.bind_some, if_pos ⟨hm.1, by simp; omega⟩, push_ok (by simp; omega)]
    exact ⟨[cur, c' :: r], by simp, by simp, by simp [join, hcd], by simp [hn]⟩
  | case8 c c' r prev on num on' hq hd hm ih =>
    intro p' slots out cur ha hn hc
    unfold fillQ
    rw [← ha on c c', hq]
    have hcd : c = d := by have := hd.1; unfold ceq at this; simp at this; exact this.1
    simp only [if_pos hd]
    have := countQ_mono d q e max (c' :: r) (some c) on' (num + 1)
    rw [push_ok (by omega), Option.bind_some, if_neg (by intro h; apply hm; refine ⟨h.1, ?_⟩; have := h.2; simp at this; omega)]
    obtain ⟨xs, e1, e2, e3, e4⟩ := ih (some 0) slots (out ++ [cur]) [] (fun on x n => qstep_same hde hd.1 q on x n) (by simp [hn]) hc
    refine ⟨cur :: xs, by rw [e1]; simp, by simp, ?_, by rw [← e4]; simp⟩
    rw [join_cons _ _ e2, e3, hcd]; simp
  | case9 c c' r prev on num on' hq hd ih =>
    intro p' slots out cur ha hn hc
    unfold fillQ
    rw [← ha on c c', hq]
    simp only [if_neg hd]
    obtain ⟨xs, e1, e2, e3, e4⟩ := ih (some c) slots out (cur ++ [c]) (fun _ _ _ => rfl) hn hc
    exact ⟨xs, e1, e2, by rw [e3]; simp, e4⟩

theorem countQ_max (d q e : UInt8) (max : Nat) (s : List UInt8) (prev : Option UInt8) (on : Bool) (num : Nat) (h2 : 2 ≤ max) :
    num < max - 1 → countQ d q e max s prev on num ≤ max - 1 := by
  fun_induction countQ d q e max s prev on num <;> grind

/-- Splitting with quotes never stores a part outside the array, reports as many parts as it stores, and with the delimiter
between them the parts are the string; no more than `max` of them if `max` is at least 2.  Missing: a delimiter that is
also the escape character (`explodeQ_fails`) and a maximum of one part (`explodeQ_one`). -/
theorem explodeQ_partial (d q e : UInt8) (max : Nat) (hde : d ≠ e) (s : List UInt8) (hs : s ≠ []) :
    ∃ xs, explodeQ d q e max s = some (xs.length, xs) ∧ join [d] xs = s ∧ (2 ≤ max → xs.length ≤ max) := by
  unfold explodeQ
  rw [if_neg hs]
  obtain ⟨xs, e1, e2, e3, e4⟩ := fillQ_spec d q e max hde s none false 0 none (countQ d q e max s none false 0 + 1) [] [] (fun _ _ _ => rfl) rfl (by omega)
  simp only [e1, Option.map_some]
  refine ⟨xs, ?_, e3, ?_⟩
  · rw [← e4]; simp
  · intro h
    have := countQ_max d q e max s none false 0 h (by omega)
    simp only [List.nil_append] at e4
    omega

/-- If the delimiter is also the escape character, the second pass, which finds the delimiters already overwritten, sees
other quotes than the first: splitting `;"x";;;;` at `;` stores five parts behind the two the array was made for, and
splitting `;";` reports three parts but stores two. -/
theorem explodeQ_fails : explodeQ 59 34 59 0 [59, 34, 120, 34, 59, 59, 59, 59] = none ∧ explodeQ 59 34 59 0 [59, 34, 59] = some (3, [[], [34, 59]]) := by decide +kernel

/-- A maximum of one part is no maximum. -/
theorem explodeQ_one : explodeQ 44 34 34 1 [97, 44, 98, 44, 99] = some (3, [[97], [98], [99]]) := by decide +kernel

example : explodeQ 44 34 34 2 [97, 44, 34, 98, 44, 34, 44, 99] = some (2, [[97], [34, 98, 44, 34, 44, 99]]) ∧
    explodeQ 44 34 34 0 [97, 44, 34, 98, 44, 34, 44, 99] = some (3, [[97], [34, 98, 44, 34], [99]]) := by decide +kernel

/-! ### Joining -/

/-- What splitting without a maximum gives, without the array. -/
def partsQ (d q e : UInt8) : List UInt8 → Option UInt8 → Bool → List UInt8 → List (List UInt8)
  | [], _, _, cur => [cur]
  | c :: [], prev, on, cur =>
    match qstep q e prev on c 0 with
    | .go on => if ceq c d ∧ on = false then [cur, []] else [cur ++ [c]]
    | _ => [cur ++ [c]]
  | c :: c' :: r, prev, on, cur =>
    match qstep q e prev on c c' with
    | .skip2 => partsQ d q e r (some c') on (cur ++ [c, c'])
    | .skip => partsQ d q e (c' :: r) (some c) on (cur ++ [c])
    | .go on =>
      if ceq c d ∧ on = false then cur :: partsQ d q e (c' :: r) (some 0) on []
      else partsQ d q e (c' :: r) (some c) on (cur ++ [c])

theorem push_some {slots : Nat} {out o : List (List UInt8)} {x : List UInt8} (h : push slots out x = some o) : o = out ++ [x] := by
  unfold push at h
  split at h
  · cases h
  · exact (Option.some.inj h).symm

theorem fillQ_parts (d q e : UInt8) (slots : Nat) (s : List UInt8) (prev : Option UInt8) (on : Bool) (out : List (List UInt8)) (cur : List UInt8) :
    ∀ r, fillQ d q e 0 slots s prev on out cur = some r → r = out ++ partsQ d q e s prev on cur := by
  fun_induction partsQ d q e s prev on cur generalizing out with
  | case1 prev on cur => intro r h; exact push_some h
  | case2 c prev on cur on' hq hd =>
    intro r h
    unfold fillQ at h
    rw [hq] at h
    simp only [if_pos hd] at h
    obtain ⟨o, h1, h2⟩ := Option.bind_eq_some_iff.1 h
    rw [push_some h2, push_some h1]; simp
  | case3 c prev on cur on' hq hd =>
    intro r h
    unfold fillQ at h
    rw [hq] at h
    simp only [if_neg hd] at h
    exact push_some h
  | case4 c prev on cur hq =>
    intro r h
    unfold fillQ at h
    split at h
    · rename_i on' h'; exact absurd h' (hq on')
    · exact push_some h
  | case5 c c' r prev on cur hq ih =>
    intro t h
    unfold fillQ at h
    rw [hq] at h
    exact ih out t h
  | case6 c c' r prev on cur hq ih =>
    intro t h
    unfold fillQ at h
    rw [hq] at h
    exact ih out t h
  | case7 c c' r prev on cur on' hq hd ih =>
    intro t h
    unfold fillQ at h
    rw [hq] at h
    simp only [if_pos hd] at h
    obtain ⟨o, h1, h2⟩ := Option.bind_eq_some_iff.1 h
    rw [if_neg (by simp)] at h2
    rw [ih o t h2, push_some h1]; simp
  | case8 c c' r prev on cur on' hq hd ih =>
    intro t h
    unfold fillQ at h
    rw [hq] at h
    simp only [if_neg hd] at h
    exact ih out t h

theorem parts_go {d q e : UInt8} {prev : Option UInt8} {on on' : Bool} {c : UInt8} {rest cur : List UInt8} (h : qstep q e prev on c (rest.headD 0) = .go on')
    (hd : ¬ (ceq c d = true ∧ on' = false)) : partsQ d q e (c :: rest) prev on cur = partsQ d q e rest (some c) on' (cur ++ [c]) := by
  cases rest with
  | nil => unfold partsQ; simp only [List.headD_nil] at h; rw [h]; simp only [if_neg hd]
  | cons c' r =>
    conv => lhs; unfold partsQ
    simp only [List.headD_cons] at h; rw [h]; simp only [if_neg hd]

theorem parts_skip {d q e : UInt8} {prev : Option UInt8} {on : Bool} {c : UInt8} {rest cur : List UInt8} (h : qstep q e prev on c (rest.headD 0) = .skip) :
    partsQ d q e (c :: rest) prev on cur = partsQ d q e rest (some c) on (cur ++ [c]) := by
  cases rest with
  | nil => unfold partsQ; simp only [List.headD_nil] at h; rw [h]
  | cons c' r =>
    conv => lhs; unfold partsQ
    simp only [List.headD_cons] at h; rw [h]

theorem parts_skip2 {d q e : UInt8} {prev : Option UInt8} {on : Bool} {c c' : UInt8} {rest cur : List UInt8} (h : qstep q e prev on c c' = .skip2) :
    partsQ d q e (c :: c' :: rest) prev on cur = partsQ d q e rest (some c') on (cur ++ [c, c']) := by
  conv => lhs; unfold partsQ
  rw [h]

theorem parts_cut {d q e : UInt8} {prev : Option UInt8} {on on' : Bool} {c : UInt8} {rest cur : List UInt8} (h : qstep q e prev on c (rest.headD 0) = .go on')
    (hd : ceq c d = true ∧ on' = false) : partsQ d q e (c :: rest) prev on cur = cur :: partsQ d q e rest (some 0) on' [] := by
  cases rest with
  | nil => unfold partsQ; simp only [List.headD_nil] at h; rw [h]; simp only [if_pos hd, partsQ]
  | cons c' r =>
    conv => lhs; unfold partsQ
    simp only [List.headD_cons] at h; rw [h]; simp only [if_pos hd]

/-- The characters of a splitting: ASCII, not zero, and the delimiter neither the quote nor the escape character. -/
structure Good (d q e : UInt8) : Prop where
  d1 : d < 128
  q1 : q < 128
  e1 : e < 128
  q0 : q ≠ 0
  e0 : e ≠ 0
  dq : d ≠ q
  de : d ≠ e

theorem qstep_other {q e c : UInt8} (hq : q < 128) (h : c ≠ q) (prev : Option UInt8) (on : Bool) (n : UInt8) : qstep q e prev on c n = .go on := by
  unfold qstep
  rw [if_neg (fun h' => h ((ceq_iff c q hq).1 h'.2))]

theorem cell_plain {d q e : UInt8} (g : Good d q e) (x : List UInt8) (hx : ∀ c ∈ x, c ≠ d ∧ c ≠ q) (rest : List UInt8) : ∀ (prev : Option UInt8) (cur : List UInt8),
    ∃ p, partsQ d q e (x ++ rest) prev false cur = partsQ d q e rest p false (cur ++ x) := by
  induction x with
  | nil => intro prev cur; exact ⟨prev, by simp⟩
  | cons c x ih =>
    intro prev cur
    obtain ⟨p, h⟩ := ih (fun c hc => hx c (by simp [hc])) (some c) (cur ++ [c])
    refine ⟨p, ?_⟩
    have hc := hx c (by simp)
    rw [List.cons_append, parts_go (qstep_other g.q1 hc.2 prev false _) (by rw [ceq_iff c d g.d1]; exact fun h => hc.1 h.1), h]
    simp

/-- The text between the quotes when quote and escape differ. -/
theorem body_diff {d q e : UInt8} (g : Good d q e) (hqe : q ≠ e) (s : List UInt8) (rest : List UInt8) : ∀ (prev : Option UInt8) (cur : List UInt8),
    partsQ d q e (escape q e s ++ rest) prev true cur = partsQ d q e rest (s.getLast?.or prev) true (cur ++ escape q e s) := by
  induction s with
  | nil => intro prev cur; simp [escape]
  | cons c s ih =>
    intro prev cur
    have hl : (c :: s).getLast?.or prev = s.getLast?.or (some c) := by
      rw [List.getLast?_cons]; cases s.getLast? <;> rfl
    rw [hl]
    by_cases h : ceq c q = true ∨ ceq c e = true
    · have he : escape q e (c :: s) = e :: c :: escape q e s := by
        conv => lhs; unfold escape
        rw [if_pos h]
      have step1 : partsQ d q e (e :: c :: (escape q e s ++ rest)) prev true cur = partsQ d q e (c :: (escape q e s ++ rest)) (some e) true (cur ++ [e]) :=
        parts_go (qstep_other g.q1 (Ne.symm hqe) prev true _) (by simp)
      have step2 : partsQ d q e (c :: (escape q e s ++ rest)) (some e) true (cur ++ [e]) = partsQ d q e (escape q e s ++ rest) (some c) true (cur ++ [e] ++ [c]) := by
        by_cases hcq : c = q
        · subst hcq
          refine parts_skip ?_
          unfold qstep
          rw [if_pos ⟨g.q0, (ceq_iff c c g.q1).2 rfl⟩, if_neg (fun h => hqe h.1), if_pos ⟨g.e0, hqe, by simp [(ceq_iff e e g.e1).2 rfl]⟩]
        · exact parts_go (qstep_other g.q1 hcq _ true _) (by simp)
      rw [he, List.cons_append, List.cons_append, step1, step2, ih]; simp
    · have he : escape q e (c :: s) = c :: escape q e s := by
        conv => lhs; unfold escape
        rw [if_neg h]
      have hcq : c ≠ q := fun hc => h (Or.inl ((ceq_iff c q g.q1).2 hc))
      rw [he, List.cons_append, parts_go (qstep_other g.q1 hcq prev true _) (by simp), ih]; simp

theorem cell_diff {d q e : UInt8} (g : Good d q e) (hqe : q ≠ e) (s rest : List UInt8) (hl : s.getLast? ≠ some e) (prev : Option UInt8) (hp : prev.any (ceq · e) = false) (cur : List UInt8) :
    ∃ p, partsQ d q e ([q] ++ escape q e s ++ [q] ++ rest) prev false cur = partsQ d q e rest p false (cur ++ ([q] ++ escape q e s ++ [q])) := by
  have hqq := (ceq_iff q q g.q1).2 rfl
  have hqd : ¬ ceq q d = true := fun h => g.dq ((ceq_iff q d g.d1).1 h).symm
  have open_ : ∀ n, qstep q e prev false q n = .go true := by
    intro n
    unfold qstep
    rw [if_pos ⟨g.q0, hqq⟩, if_neg (fun h => hqe h.1), if_neg (by rw [hp]; simp)]; rfl
  have close : ∀ n, qstep q e (s.getLast?.or (some q)) true q n = .go false := by
    intro n
    unfold qstep
    rw [if_pos ⟨g.q0, hqq⟩, if_neg (fun h => hqe h.1), if_neg]
    · rfl
    · rintro ⟨_, _, h⟩
      cases hs : s.getLast? with
      | none => rw [hs] at h; simp only [Option.none_or, Option.any_some] at h; exact hqe ((ceq_iff q e g.e1).1 h)
      | some x =>
        rw [hs] at h hl
        simp only [Option.some_or, Option.any_some] at h
        exact hl (by rw [(ceq_iff x e g.e1).1 h])
  refine ⟨some q, ?_⟩
  have e1 : [q] ++ escape q e s ++ [q] ++ rest = q :: (escape q e s ++ (q :: rest)) := by simp
  rw [e1, parts_go (open_ _) (by simp [hqd]), body_diff g hqe, parts_go (close _) (by simp [hqd])]
  simp

theorem escape_same (q c : UInt8) (hq : q < 128) (s : List UInt8) : escape q q (c :: s) = if c = q then q :: q :: escape q q s else c :: escape q q s := by
  conv => lhs; unfold escape
  by_cases h : c = q
  · rw [if_pos h, if_pos (Or.inl ((ceq_iff c q hq).2 h)), h]
  · rw [if_neg h, if_neg (fun h' => h ((ceq_iff c q hq).1 (h'.elim id id)))]

theorem qstep_double {q : UInt8} (hq : q < 128) (h0 : q ≠ 0) (prev : Option UInt8) (on : Bool) : qstep q q prev on q q = .skip2 := by
  have hqq := (ceq_iff q q hq).2 rfl
  unfold qstep
  rw [if_pos ⟨h0, hqq⟩, if_pos ⟨rfl, hqq⟩]

theorem qstep_single {q n : UInt8} (hq : q < 128) (h0 : q ≠ 0) (hn : n ≠ q) (prev : Option UInt8) (on : Bool) : qstep q q prev on q n = .go (!on) := by
  have hqq := (ceq_iff q q hq).2 rfl
  unfold qstep
  rw [if_pos ⟨h0, hqq⟩, if_neg (fun h => hn ((ceq_iff n q hq).1 h.2)), if_neg (fun h => h.2.1 rfl)]

theorem body_same {d q : UInt8} (g : Good d q q) (s rest : List UInt8) (hr : rest.headD 0 ≠ q) : ∀ (prev : Option UInt8) (cur : List UInt8),
    ∃ p, partsQ d q q (escape q q s ++ (q :: rest)) prev true cur = partsQ d q q rest p false (cur ++ escape q q s ++ [q]) := by
  have hqd : ¬ ceq q d = true := fun h => g.dq ((ceq_iff q d g.d1).1 h).symm
  induction s with
  | nil =>
    intro prev cur
    refine ⟨some q, ?_⟩
    simp only [escape, List.nil_append]
    rw [parts_go (qstep_single g.q1 g.q0 hr prev true) (by simp [hqd])]; simp
  | cons c s ih =>
    intro prev cur
    rw [escape_same q c g.q1]
    by_cases h : c = q
    · rw [if_pos h]
      obtain ⟨p, hp⟩ := ih (some q) (cur ++ [q, q])
      refine ⟨p, ?_⟩
      rw [List.cons_append, List.cons_append, parts_skip2 (qstep_double g.q1 g.q0 prev true), hp]; simp
    · rw [if_neg h]
      obtain ⟨p, hp⟩ := ih (some c) (cur ++ [c])
      refine ⟨p, ?_⟩
      rw [List.cons_append, parts_go (qstep_other g.q1 h prev true _) (by simp), hp]; simp

theorem cell_same {d q : UInt8} (g : Good d q q) (s rest : List UInt8) (hr : rest.headD 0 ≠ q) : ∀ (prev : Option UInt8) (cur : List UInt8),
    ∃ p, partsQ d q q ([q] ++ escape q q s ++ [q] ++ rest) prev false cur = partsQ d q q rest p false (cur ++ ([q] ++ escape q q s ++ [q])) := by
  have hqd : ¬ ceq q d = true := fun h => g.dq ((ceq_iff q d g.d1).1 h).symm
  induction s with
  | nil =>
    intro prev cur
    refine ⟨some q, ?_⟩
    simp only [escape, List.append_nil]
    show partsQ d q q (q :: q :: rest) prev false cur = _
    rw [parts_skip2 (qstep_double g.q1 g.q0 prev false)]; rfl
  | cons c s ih =>
    intro prev cur
    rw [escape_same q c g.q1]
    by_cases h : c = q
    · rw [if_pos h]
      obtain ⟨p, hp⟩ := ih (some q) (cur ++ [q, q])
      refine ⟨p, ?_⟩
      have e1 : [q] ++ q :: q :: escape q q s ++ [q] ++ rest = q :: q :: ([q] ++ escape q q s ++ [q] ++ rest) := by simp
      rw [e1, parts_skip2 (qstep_double g.q1 g.q0 prev false), hp]; simp
    · rw [if_neg h]
      obtain ⟨p, hp⟩ := body_same g s rest hr (some c) (cur ++ [q] ++ [c])
      refine ⟨p, ?_⟩
      have e1 : [q] ++ c :: escape q q s ++ [q] ++ rest = q :: c :: (escape q q s ++ (q :: rest)) := by simp
      rw [e1, parts_go (on' := true) (qstep_single g.q1 g.q0 (by simpa using h) prev false) (by simp), parts_go (qstep_other g.q1 h _ true _) (by simp), hp]; simp

/-- An enclosed string. -/
theorem enclose_eq (d q e : UInt8) (always : Bool) (s : Option (List UInt8)) :
    encloseOne d q e always s = if always = true ∨ mustEnclose d q e s = true then [q] ++ escape q e (s.getD []) ++ [q] else s.getD [] := by
  unfold encloseOne
  by_cases h : always = true ∨ mustEnclose d q e s = true
  · rw [if_pos h, if_pos h]
    by_cases h2 : mustEnclose d q e s = true
    · rw [if_pos h2]
    · rw [if_neg h2, escape_none]
      intro c hc
      cases s with
      | none => simp at hc
      | some s =>
        simp only [Option.getD_some] at hc
        simp only [mustEnclose, restricted, List.any_eq_true, not_exists, not_and] at h2
        have := h2 c hc
        simp at this
        exact ⟨this.1.2, this.2⟩
  · rw [if_neg h, if_neg h]

theorem enclose_bare {d q e : UInt8} {s : Option (List UInt8)} (g : Good d q e) (h : ¬ mustEnclose d q e s = true) : ∀ c ∈ s.getD [], c ≠ d ∧ c ≠ q ∧ c ≠ e := by
  intro c hc
  cases s with
  | none => simp at hc
  | some s =>
    simp only [Option.getD_some] at hc
    simp only [mustEnclose, restricted, List.any_eq_true, not_exists, not_and] at h
    have := h c hc
    simp only [Bool.or_eq_true, not_or] at this
    rw [ceq_iff c d g.d1, ceq_iff c q g.q1, ceq_iff c e g.e1] at this
    exact ⟨this.1.1, this.1.2, this.2⟩

/-- One imploded string is passed over as a whole. -/
theorem cell_pass {d q e : UInt8} (g : Good d q e) (always : Bool) (s : Option (List UInt8)) (hl : q = e ∨ (s.getD []).getLast? ≠ some e) (rest : List UInt8)
    (hr : rest.headD 0 ≠ q) (prev : Option UInt8) (hp : prev.any (ceq · e) = false) (cur : List UInt8) :
    ∃ p, partsQ d q e (encloseOne d q e always s ++ rest) prev false cur = partsQ d q e rest p false (cur ++ encloseOne d q e always s) := by
  rw [enclose_eq]
  by_cases h : always = true ∨ mustEnclose d q e s = true
  · rw [if_pos h]
    by_cases hqe : q = e
    · subst hqe
      exact cell_same g _ rest hr prev cur
    · rcases hl with hl | hl
      · exact absurd hl hqe
      · exact cell_diff g hqe _ rest hl prev hp cur
  · rw [if_neg h]
    have := enclose_bare (s := s) g (fun h' => h (Or.inr h'))
    exact cell_plain g _ (fun c hc => ⟨(this c hc).1, (this c hc).2.1⟩) rest prev cur

theorem parts_join {d q e : UInt8} (g : Good d q e) (always : Bool) : ∀ (strs : List (Option (List UInt8))), strs ≠ [] →
    (q = e ∨ ∀ s ∈ strs, (s.getD []).getLast? ≠ some e) → ∀ prev : Option UInt8, prev.any (ceq · e) = false →
    partsQ d q e (join [d] (strs.map (encloseOne d q e always))) prev false [] = strs.map (encloseOne d q e always) := by
  intro strs
  induction strs with
  | nil => intro h; exact absurd rfl h
  | cons s ss ih =>
    intro _ hl prev hp
    have hs : q = e ∨ (s.getD []).getLast? ≠ some e := hl.elim Or.inl fun h => Or.inr (h s (by simp))
    cases ss with
    | nil =>
      obtain ⟨p, h⟩ := cell_pass g always s hs [] (by simpa using g.q0.symm) prev hp []
      simp only [List.append_nil, List.nil_append] at h
      simp only [List.map_cons, List.map_nil, join]
      rw [h]; rfl
    | cons s' ss =>
      rw [List.map_cons, join_cons _ _ (by simp)]
      obtain ⟨p, h⟩ := cell_pass g always s hs (d :: join [d] ((s' :: ss).map (encloseOne d q e always))) (by simpa using g.dq) prev hp []
      rw [List.append_assoc, List.singleton_append, h, List.nil_append,
        parts_cut (qstep_other g.q1 g.dq p false _) ⟨(ceq_iff d d g.d1).2 rfl, rfl⟩,
        ih (by simp) (hl.elim Or.inl fun h => Or.inr fun s hs => h s (by simp only [List.mem_cons] at hs ⊢; exact Or.inr hs)) (some 0) (by simp [ceq, g.e0.symm])]

theorem implodeLoop_eq (d q e : UInt8) (always : Bool) (strs : List (Option (List UInt8))) : ∀ (out : List UInt8),
    implodeLoop d q e always strs false out = out ++ (strs.map fun s => d :: encloseOne d q e always s).flatten := by
  induction strs with
  | nil => intro out; simp [implodeLoop]
  | cons s ss ih => intro out; unfold implodeLoop; rw [ih]; simp

theorem implode_join (d q e : UInt8) (strs : List (Option (List UInt8))) (always : Bool) : implode d q e strs always = join [d] (strs.map (encloseOne d q e always)) := by
  have aux : ∀ (ss : List (Option (List UInt8))) (x : List UInt8), x ++ (ss.map fun s => d :: encloseOne d q e always s).flatten = join [d] (x :: ss.map (encloseOne d q e always)) := by
    intro ss
    induction ss with
    | nil => intro x; simp [join]
    | cons s ss ih =>
      intro x
      rw [List.map_cons, List.map_cons, join_cons _ _ (by simp), ← ih]; simp
  cases strs with
  | nil => rfl
  | cons s ss =>
    unfold implode implodeLoop
    rw [implodeLoop_eq, if_pos rfl, List.nil_append, List.map_cons, aux]

/-- Joining strings and splitting the result again: as many parts come back, and taking the quotes off each gives the
strings.  Strings that were not enclosed must not begin or end with white space, as taking off the quotes trims them; a
null pointer comes back as the empty string.  Missing: if quote and escape differ, a string that ends in the escape
character (`implode_fails`); a single empty string (which leaves nothing to split). -/
theorem implode_partial {d q e : UInt8} (g : Good d q e) (hs : isSpace q = false) (strs : List (Option (List UInt8))) (always : Bool)
    (hl : q = e ∨ ∀ s ∈ strs, (s.getD []).getLast? ≠ some e)
    (ht : always = true ∨ ∀ s ∈ strs, NoOuter (s.getD [])) (hne : implode d q e strs always ≠ []) :
    ∃ xs, explodeQ d q e 0 (implode d q e strs always) = some (strs.length, xs) ∧ xs.map (unquote · q e) = strs.map (·.getD []) := by
  obtain ⟨xs, h1, _, _⟩ := explodeQ_partial d q e 0 g.de _ hne
  have hxs : xs = strs.map (encloseOne d q e always) := by
    unfold explodeQ at h1
    rw [if_neg hne] at h1
    obtain ⟨r, h2, h3⟩ := Option.map_eq_some_iff.1 h1
    have h4 := fillQ_parts _ _ _ _ _ _ _ _ _ r h2
    simp only [Prod.mk.injEq] at h3
    rw [← h3.2, h4, List.nil_append, implode_join]
    refine parts_join g always strs ?_ hl none rfl
    rintro rfl
    exact hne rfl
  subst hxs
  refine ⟨_, by rw [h1, List.length_map], ?_⟩
  rw [List.map_map]
  refine List.map_congr_left fun s hsm => ?_
  simp only [Function.comp]
  rw [enclose_eq]
  by_cases h : always = true ∨ mustEnclose d q e s = true
  · rw [if_pos h, unquote_enclosed q e g.q1 hs, unescape_escape q e g.q1 g.e1]
  · rw [if_neg h, unquote_bare]
    · rcases ht with ht | ht
      · exact absurd (Or.inl ht) h
      · exact trim_eq (ht s hsm)
    · intro c hc
      have := enclose_bare g (fun h' => h (Or.inr h')) c hc
      cases hcq : ceq c q
      · rfl
      · exact absurd ((ceq_iff c q g.q1).1 hcq) this.2.1

/-- If quote and escape differ, an enclosed string that ends in the escape character hides its closing quote: joining `a\`
and `b` with every string enclosed and splitting again gives one part. -/
theorem implode_fails : implode 44 34 92 [some [97, 92], some [98]] true = [34, 97, 92, 92, 34, 44, 34, 98, 34] ∧
    explodeQ 44 34 92 0 [34, 97, 92, 92, 34, 44, 34, 98, 34] = some (1, [[34, 97, 92, 92, 34, 44, 34, 98, 34]]) := by decide +kernel

example : explodeQ 44 34 34 0 (implode 44 34 34 [some [97, 44], none, some [34, 34]] false) = some (3, [[34, 97, 44, 34], [], [34, 34, 34, 34, 34, 34]]) := by decide +kernel

/-! ### Replacing -/

theorem find_spec (b : List UInt8) (s : List UInt8) :
    match find b s with
    | some k => ∃ x r, s = x ++ b ++ r ∧ x.length = k ∧ ∀ p q, s = p ++ b ++ q → k ≤ p.length
    | none => ∀ p q, s ≠ p ++ b ++ q := by
  induction s with
  | nil =>
    unfold find
    by_cases h : b = []
    · rw [if_pos h, h]; exact ⟨[], [], rfl, rfl, fun _ _ _ => Nat.zero_le _⟩
    · rw [if_neg h]
      intro p q e
      have e := e.symm
      simp only [List.append_eq_nil_iff] at e
      exact h e.1.2
  | cons c s ih =>
    unfold find
    by_cases h : b.isPrefixOf (c :: s) = true
    · rw [if_pos h]
      obtain ⟨r, hr⟩ := List.isPrefixOf_iff_prefix.1 h
      exact ⟨[], r, by simp [hr], rfl, fun _ _ _ => Nat.zero_le _⟩
    · rw [if_neg h]
      have hno : ∀ q, c :: s ≠ b ++ q := fun q e => h (List.isPrefixOf_iff_prefix.2 ⟨q, e.symm⟩)
      cases hf : find b s with
      | none =>
        rw [hf] at ih
        intro p q e
        cases p with
        | nil => exact hno q e
        | cons c' p =>
          simp only [List.cons_append, List.cons.injEq] at e
          exact ih p q e.2
      | some k =>
        rw [hf] at ih
        obtain ⟨x, r, h1, h2, h3⟩ := ih
        refine ⟨c :: x, r, by rw [h1]; simp, by simp [h2], ?_⟩
        intro p q e
        cases p with
        | nil => exact absurd e (hno q)
        | cons c' p =>
          simp only [List.cons_append, List.cons.injEq] at e
          have := h3 p q e.2
          simpa using this

/-- The pieces of a string around the occurrences of `b`, found from left to right. -/
inductive Pieces (b : List UInt8) : List UInt8 → List (List UInt8) → Prop
  | last (s : List UInt8) (h : ∀ p q, s ≠ p ++ b ++ q) : Pieces b s [s]
  | more (x s : List UInt8) (xs : List (List UInt8)) (h : ∀ p q, x ++ b ++ s = p ++ b ++ q → x.length ≤ p.length) (t : Pieces b s xs) : Pieces b (x ++ b ++ s) (x :: xs)

theorem Pieces.ne {b s : List UInt8} {xs : List (List UInt8)} (h : Pieces b s xs) : xs ≠ [] := by cases h <;> simp

/-- What the loop leaves: all pieces joined, and if the last match ends the string, the last piece and match once more. -/
def outcome (b a : List UInt8) : List (List UInt8) → List UInt8
  | [] => []
  | [x] => x
  | [x, y] => if y = [] then x ++ a ++ (x ++ b) else x ++ a ++ y
  | x :: y :: z :: xs => x ++ a ++ outcome b a (y :: z :: xs)

theorem replaceLoop_spec (s b a : List UInt8) (hb : b ≠ []) {t : List UInt8} {xs : List (List UInt8)} (h : Pieces b t xs) : ∀ (fuel p : Nat) (out : List UInt8), t.length < fuel → s.drop p = t →
    p ≤ s.length →
    (replaceLoop s b a fuel p p out).2 ≤ s.length ∧
      (replaceLoop s b a fuel p p out).1 ++ s.drop (replaceLoop s b a fuel p p out).2 = out ++ outcome b a xs := by
  induction h with
  | last t h =>
    intro fuel p out hf hd hp
    cases fuel with
    | zero => omega
    | succ fuel =>
      unfold replaceLoop
      have := find_spec b t
      rw [hd]
      cases hk : find b t with
      | some k =>
        rw [hk] at this
        obtain ⟨x, r, e, _⟩ := this
        exact absurd e (h x r)
      | none => exact ⟨hp, by simp only [hd, outcome]⟩
  | more x r xs h ht ih =>
    intro fuel p out hf hd hp
    cases fuel with
    | zero => omega
    | succ fuel =>
      unfold replaceLoop
      have hfs := find_spec b (x ++ b ++ r)
      rw [hd]
      cases hk : find b (x ++ b ++ r) with
      | none =>
        rw [hk] at hfs
        exact absurd rfl (hfs x r)
      | some k =>
        rw [hk] at hfs
        obtain ⟨x', r', e, h1, h2⟩ := hfs
        have hkx : k = x.length := by
          have a1 := h2 x r rfl
          have a2 := h x' r' e
          omega
        dsimp only
        have hlen : s.length = p + (x ++ b ++ r).length := by
          have := congrArg List.length hd
          rw [List.length_drop] at this; omega
        simp only [List.length_append] at hlen hf
        have hb0 : 0 < b.length := List.length_pos_iff.2 hb
        have htake : ((x ++ b ++ r).take (p + k - p)) = x := by
          rw [Nat.add_sub_cancel_left, hkx, List.append_assoc, List.take_left]
        rw [htake]
        by_cases hr : r = []
        · subst hr
          rw [if_pos (by rw [hkx]; simp at hlen; omega)]
          refine ⟨hp, ?_⟩
          have hxs : xs = [[]] := by
            generalize hnil : ([] : List UInt8) = n at ht
            cases ht with
            | last => rfl
            | more y s ys _ _ =>
              exfalso
              have := congrArg List.length hnil
              simp at this; omega
          rw [hxs]
          simp only [hd, outcome, if_true, List.append_nil, List.append_assoc]
        · have hr0 : 0 < r.length := List.length_pos_iff.2 hr
          rw [if_neg (by rw [hkx]; omega)]
          have hd' : s.drop (p + k + b.length) = r := by
            rw [Nat.add_assoc, ← List.drop_drop, hd, hkx, ← List.length_append, List.drop_left]
          obtain ⟨i1, i2⟩ := ih fuel (p + k + b.length) (out ++ x ++ a) (by omega) hd' (by rw [hkx]; omega)
          refine ⟨i1, ?_⟩
          rw [i2]
          have hne := ht.ne
          match xs, ht with
          | [y], ht =>
            have : y ≠ [] := by
              generalize hy : [y] = ys at ht
              cases ht with
              | last => simp at hy; rw [hy]; exact hr
              | more z s' zs _ t =>
                simp at hy
                exact absurd hy.2 t.ne
            simp [outcome, this]
          | y :: z :: zs, _ => simp [outcome]
          | [], _ => exact absurd rfl hne

/-- Every string has exactly such pieces. -/
theorem pieces_exist (b : List UInt8) (hb : b ≠ []) : ∀ (n : Nat) (s : List UInt8), s.length ≤ n → ∃ xs, Pieces b s xs := by
  intro n
  induction n with
  | zero =>
    intro s h
    have : s = [] := List.length_eq_zero_iff.1 (by omega)
    subst this
    refine ⟨[[]], .last [] ?_⟩
    intro p q e
    have e := e.symm
    simp only [List.append_eq_nil_iff] at e
    exact hb e.1.2
  | succ n ih =>
    intro s h
    have hf := find_spec b s
    cases hk : find b s with
    | none => rw [hk] at hf; exact ⟨[s], .last s hf⟩
    | some k =>
      rw [hk] at hf
      obtain ⟨x, r, rfl, h1, h2⟩ := hf
      have hb0 : 0 < b.length := List.length_pos_iff.2 hb
      obtain ⟨xs, hx⟩ := ih r (by simp only [List.length_append] at h; omega)
      exact ⟨x :: xs, .more x r xs (fun p q e => by rw [h1]; exact h2 p q e) hx⟩

theorem replaceStr_eq (s b a : List UInt8) (hs : s ≠ []) (hb : b ≠ []) {xs : List (List UInt8)} (h : Pieces b s xs) : replaceStr s b a = outcome b a xs := by
  unfold replaceStr
  rw [if_neg hs, if_neg hb]
  obtain ⟨h1, h2⟩ := replaceLoop_spec s b a hb h (s.length + 1) 0 [] (by omega) rfl (by omega)
  dsimp only
  rw [if_pos h1, h2, List.nil_append]

theorem outcome_ok (b a : List UInt8) : ∀ xs : List (List UInt8), xs.getLast? ≠ some [] → outcome b a xs = join a xs
  | [], _ => rfl
  | [x], _ => rfl
  | [x, y], h => by
    have : y ≠ [] := by simpa using h
    simp [outcome, join, this]
  | x :: y :: z :: xs, h => by
    unfold outcome
    rw [outcome_ok b a (y :: z :: xs) (by rwa [List.getLast?_cons_cons] at h)]
    rfl

theorem outcome_end (b a y : List UInt8) : ∀ xs : List (List UInt8), outcome b a (xs ++ [y, []]) = join a (xs ++ [y, []]) ++ (y ++ b)
  | [] => by simp [outcome, join]
  | [x] => by simp [outcome, join]
  | x :: x' :: xs => by
    have h := outcome_end b a y (x' :: xs)
    have : ∀ l : List (List UInt8), 2 ≤ l.length → outcome b a (x :: l) = x ++ a ++ outcome b a l := by
      intro l hl
      match l, hl with
      | u :: v :: w, _ => rfl
    rw [List.cons_append, this _ (by simp), h, join_cons _ _ (by simp)]
    simp

/-- Replacing `b` by `a`: every occurrence, from left to right, is replaced.  Missing: a string that ends in an occurrence,
see `replace_fails`. -/
theorem replace_partial (s b a : List UInt8) (hs : s ≠ []) (hb : b ≠ []) {xs : List (List UInt8)} (h : Pieces b s xs) (hl : xs.getLast? ≠ some []) : replaceStr s b a = join a xs := by
  rw [replaceStr_eq s b a hs hb h, outcome_ok b a xs hl]

/-- When an occurrence ends the string, the text from the end of the occurrence before it is added once more, unreplaced. -/
theorem replace_fails (s b a : List UInt8) (hs : s ≠ []) (hb : b ≠ []) (xs : List (List UInt8)) (y : List UInt8) (h : Pieces b s (xs ++ [y, []])) :
    replaceStr s b a = join a (xs ++ [y, []]) ++ (y ++ b) := by
  rw [replaceStr_eq s b a hs hb h, outcome_end b a y xs]

/-- "aXb" with "b" replaced by "c" is "aXcaXb". -/
example : replaceStr [97, 88, 98] [98] [99] = [97, 88, 99, 97, 88, 98] ∧ replaceStr [98, 88, 98, 97] [98] [99, 99] = [99, 99, 88, 99, 99, 97] := by decide +kernel

/-- Replacing the characters of a set (of ASCII characters) replaces each of them and nothing else. -/
theorem replaceCharset_correct (bcs a : List UInt8) (hb : ∀ c ∈ bcs, c < 128) (s : List UInt8) : ∀ out, replaceCharset bcs a s out = out ++ s.flatMap fun c => if c ∈ bcs then a else [c] := by
  induction s with
  | nil => intro out; simp [replaceCharset]
  | cons c s ih =>
    intro out
    unfold replaceCharset
    have hc : bcs.any (ceq c ·) = true ↔ c ∈ bcs := by
      simp only [List.any_eq_true]
      constructor
      · rintro ⟨x, hx, h⟩; rw [(ceq_iff c x (hb x hx)).1 h]; exact hx
      · intro h; exact ⟨c, h, (ceq_iff c c (hb c h)).2 rfl⟩
    dsimp only
    rw [ih, List.flatMap_cons]
    by_cases h : c ∈ bcs
    · rw [if_pos (hc.2 h), if_pos h]; simp
    · rw [if_neg (fun h' => h (hc.1 h')), if_neg h]; simp

/-- A character above 127 in the set is not replaced. -/
theorem replaceCharset_fails : replaceCharset [200] [97] [200] [] = [200] := by decide

end Verif.Str
