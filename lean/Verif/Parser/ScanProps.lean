import Verif.Parser.Scan
import Verif.Mem.Props
/- Searching (C32), maximal scans, splitting and framed messages of the parser. -/
namespace Verif.Parser.Scan

/-! ### Searching for a pattern -/

/-- `k` is where the pattern occurs first. -/
def First (rest pat : List UInt8) (k : Nat) : Prop :=
  (∃ p q, rest = p ++ pat ++ q ∧ p.length = k) ∧ ∀ p q, rest = p ++ pat ++ q → k ≤ p.length

/-- **C32.** `M_parser_consume_until` reads nothing outside the remaining bytes, and consumes up to (or, with `eat`, including)
the first occurrence of a nonempty pattern, and nothing if there is none. -/
theorem until_correct (rest pat : List UInt8) (eat : Bool) (hp : pat ≠ []) : ∃ n, untilLen rest pat eat = some n ∧
    ((∃ k, First rest pat k ∧ n = if eat then k + pat.length else k) ∨ ((∀ p q, rest ≠ p ++ pat ++ q) ∧ n = 0)) := by
  unfold untilLen
  have h0 : ¬ pat.length = 0 := fun h => hp (List.length_eq_zero_iff.mp h)
  rw [if_neg h0]
  obtain ⟨r, h1, h2⟩ := Mem.mem_correct rest pat
  rw [h1, Option.map_some]
  refine ⟨_, rfl, ?_⟩
  cases r with
  | none =>
    right
    refine ⟨?_, rfl⟩
    rcases h2 with h2 | h2
    · intro p q e
      rw [h2] at e
      have := congrArg List.length e
      simp only [List.length_nil, List.length_append] at this
      omega
    · exact h2
  | some k => exact Or.inl ⟨k, h2, rfl⟩

example : untilLen [97, 97, 98, 99] [97, 98] false = some 1 ∧ untilLen [97, 97, 98, 99] [97, 98] true = some 3 ∧ untilLen [97, 97] [97, 98] true = some 0 := by decide +kernel

/-- The bytes from `len` up to `i` are the first `j` of the pattern. -/
def Inv (data pat : List UInt8) (i j len : Nat) : Prop := i = len + j ∧ i ≤ data.length ∧ j < pat.length ∧ (data.drop len).take j = pat.take j

theorem take_succ' {l : List UInt8} {n : Nat} {c : UInt8} (h : l[n]? = some c) : l.take (n + 1) = l.take n ++ [c] := by
  rw [List.take_add_one, h]; rfl

theorem boundaryLoop_spec (data post pat : List UInt8) : ∀ fuel i j len, Inv data pat i j len → i < data.length → data.length < fuel + i →
    ∃ r, boundaryLoop (data ++ post) data.length pat fuel i j len = some r ∧ r.1 ≤ data.length ∧
      (r.2 = true → (data.drop r.1).take pat.length = pat) ∧ (r.2 = false → ∃ k < pat.length, data.drop r.1 = pat.take k) := by
  intro fuel
  induction fuel with
  | zero => intro i j len _ h1 h2; omega
  | succ fuel ih =>
    intro i j len hinv hi hf
    obtain ⟨v1, v2, v3, v4⟩ := hinv
    unfold boundaryLoop
    have e1 : (data ++ post)[i]? = some data[i] := by rw [List.getElem?_append_left hi, List.getElem?_eq_getElem hi]
    rw [e1, List.getElem?_eq_getElem v3, Option.bind_some, Option.bind_some]
    have hd : (data.drop len)[j]? = some data[i] := by rw [List.getElem?_drop, ← v1, List.getElem?_eq_getElem hi]
    by_cases hc : data[i] = pat[j]
    · rw [if_pos hc]
      have hstep : (data.drop len).take (j + 1) = pat.take (j + 1) := by
        rw [take_succ' hd, take_succ' (List.getElem?_eq_getElem v3), v4, hc]
      by_cases hj : j + 1 ≥ pat.length
      · rw [if_pos hj]
        refine ⟨_, rfl, by show len ≤ _; omega, ?_, by simp⟩
        intro _
        have : pat.length = j + 1 := by omega
        show (data.drop len).take pat.length = pat
        rw [this, hstep, ← this, List.take_length]
      · rw [if_neg hj]
        by_cases hn : i + 1 < data.length
        · rw [if_pos hn]
          exact ih (i + 1) (j + 1) len ⟨by omega, by omega, by omega, hstep⟩ hn (by omega)
        · rw [if_neg hn]
          refine ⟨_, rfl, by show len ≤ _; omega, by simp, ?_⟩
          intro _
          refine ⟨j + 1, by omega, ?_⟩
          show data.drop len = _
          rw [← hstep, List.take_of_length_le (by rw [List.length_drop]; omega)]
    · rw [if_neg hc]
      by_cases hn : i + 1 < data.length
      · rw [if_pos hn]
        exact ih (i + 1) 0 (i + 1) ⟨by omega, by omega, by omega, by simp⟩ hn (by omega)
      · rw [if_neg hn]
        refine ⟨_, rfl, by show i + 1 ≤ _; omega, by simp, ?_⟩
        intro _
        exact ⟨0, by omega, by show data.drop (i + 1) = _; rw [List.drop_of_length_le (by omega)]; rfl⟩

/-- **C32**, what holds for every pattern: `M_parser_consume_boundary` on remaining bytes that are not empty stays within them;
if it reports the pattern, the pattern stands where it stopped; and if not, all that it leaves is a beginning of the
pattern, so that nothing is lost when the rest of the pattern arrives later. -/
theorem boundary_sound (data post pat : List UInt8) (eat : Bool) (hd : data ≠ []) (hp : pat ≠ []) : ∃ n found, boundary (data ++ post) data.length pat eat = some (n, found) ∧ n ≤ data.length ∧
    (found = true → ∃ p q, data = p ++ pat ++ q ∧ n = if eat then (p ++ pat).length else p.length) ∧
    (found = false → ∃ p b, data = p ++ b ∧ n = p.length ∧ ∃ t, t ≠ [] ∧ pat = b ++ t) := by
  have h0 : ¬ pat.length = 0 := fun h => hp (List.length_eq_zero_iff.mp h)
  have h1 : data.length ≠ 0 := fun h => hd (List.length_eq_zero_iff.mp h)
  obtain ⟨⟨len, f⟩, e, hl, ht, hf⟩ := boundaryLoop_spec data post pat (data.length + 1) 0 0 0 ⟨rfl, by omega, by omega, by simp⟩ (by omega) (by omega)
  unfold boundary
  rw [if_neg h0, e, Option.map_some]
  simp only at hl ht hf
  refine ⟨_, _, rfl, ?_, ?_, ?_⟩
  · cases hff : f
    · simpa using hl
    · have := congrArg List.length (ht hff)
      rw [List.length_take, List.length_drop] at this
      by_cases he : eat = true
      · rw [if_pos ⟨rfl, he⟩]; omega
      · rw [if_neg (fun h => he h.2)]; exact hl
  · intro hff
    have hff : f = true := hff
    refine ⟨data.take len, (data.drop len).drop pat.length, ?_, ?_⟩
    · have := ht hff
      conv => lhs; rw [← List.take_append_drop len data, ← List.take_append_drop pat.length (data.drop len), this]
      rw [List.append_assoc]
    · have hlen : (data.take len).length = len := by rw [List.length_take]; omega
      simp only [hff, true_and, List.length_append, hlen]
  · intro hff
    have hff : f = false := hff
    obtain ⟨k, hk, ek⟩ := hf hff
    refine ⟨data.take len, pat.take k, ?_, ?_, pat.drop k, ?_, ?_⟩
    · rw [← ek, List.take_append_drop]
    · rw [List.length_take]
      simp only [hff, Bool.false_eq_true, false_and, if_false]; omega
    · intro h
      have := congrArg List.length h
      simp only [List.length_drop, List.length_nil] at this; omega
    · rw [List.take_append_drop]

example : boundary ([97, 97, 97] ++ [7]) 3 [97, 98] true = some (2, false) ∧ boundary [120, 97, 98, 99] 4 [97, 98] true = some (3, true) := by decide +kernel

theorem boundaryLoop_skip (c : UInt8) (r post q : List UInt8) : ∀ (p : List UInt8) (done : List UInt8) fuel, c ∉ p → p.length < fuel →
    ∃ fuel', fuel' + p.length = fuel ∧ boundaryLoop ((done ++ p ++ (c :: r) ++ q) ++ post) (done ++ p ++ (c :: r) ++ q).length (c :: r) fuel done.length 0 done.length =
      boundaryLoop ((done ++ p ++ (c :: r) ++ q) ++ post) (done ++ p ++ (c :: r) ++ q).length (c :: r) fuel' (done ++ p).length 0 (done ++ p).length := by
  intro p
  induction p with
  | nil => intro done fuel _ _; exact ⟨fuel, rfl, by simp⟩
  | cons x p ih =>
    intro done fuel hc hf
    cases fuel with
    | zero => simp at hf
    | succ fuel =>
      have hx : x ≠ c := by intro e; exact hc (by rw [e]; simp)
      obtain ⟨fuel', h1, h2⟩ := ih (done ++ [x]) fuel (fun h => hc (List.mem_cons_of_mem _ h)) (by simp at hf; omega)
      have e : done ++ [x] ++ p = done ++ x :: p := by simp
      rw [e] at h2
      refine ⟨fuel', by simp; omega, ?_⟩
      rw [← h2]
      conv => lhs; unfold boundaryLoop
      have g1 : ((done ++ x :: p ++ (c :: r) ++ q) ++ post)[done.length]? = some x := by
        simp only [List.append_assoc, List.cons_append]
        rw [List.getElem?_append_right (Nat.le_refl _), Nat.sub_self]; rfl
      rw [g1]
      simp only [Option.bind_some, List.getElem?_cons_zero]
      rw [if_neg hx, if_pos (by simp only [List.length_append, List.length_cons]; omega)]
      simp only [List.length_append, List.length_cons, List.length_nil]

theorem boundaryLoop_hit (c : UInt8) (post q done : List UInt8) (pat : List UInt8) : ∀ (m k : List UInt8) fuel, pat = m ++ k → k ≠ [] → k.length ≤ fuel →
    boundaryLoop ((done ++ pat ++ q) ++ post) (done ++ pat ++ q).length pat fuel (done ++ m).length m.length done.length = some (done.length, true) := by
  intro m k
  induction k generalizing m with
  | nil => intro fuel _ h; exact absurd rfl h
  | cons x k ih =>
    intro fuel e _ hf
    cases fuel with
    | zero => simp at hf
    | succ fuel =>
      unfold boundaryLoop
      have g1 : ((done ++ pat ++ q) ++ post)[(done ++ m).length]? = some x := by
        rw [e]
        have : (done ++ (m ++ x :: k) ++ q) ++ post = (done ++ m) ++ (x :: (k ++ (q ++ post))) := by simp
        rw [this, List.getElem?_append_right (Nat.le_refl _), Nat.sub_self]; rfl
      have g2 : pat[m.length]? = some x := by
        rw [e, List.getElem?_append_right (Nat.le_refl _), Nat.sub_self]; rfl
      rw [g1, g2]
      simp only [Option.bind_some, if_true]
      have hl : pat.length = m.length + (k.length + 1) := by rw [e]; simp
      by_cases hk : k = []
      · subst hk
        rw [if_pos (by simp at hl; omega)]
      · have hk0 : k.length ≠ 0 := fun h => hk (List.length_eq_zero_iff.mp h)
        rw [if_neg (by omega), if_pos (by simp only [List.length_append]; omega)]
        have := ih (m ++ [x]) fuel (by rw [e]; simp) hk (by simp at hf; omega)
        simpa [Nat.add_assoc] using this

/-- **C32** for `M_parser_consume_boundary`.  Partial: the first occurrence is found if the first byte of the pattern does not
occur before it; that covers every pattern of one byte.  See `boundary_fails` for the others. -/
theorem boundary_partial (p q post : List UInt8) (c : UInt8) (r : List UInt8) (eat : Bool) (hc : c ∉ p) :
    boundary ((p ++ (c :: r) ++ q) ++ post) (p ++ (c :: r) ++ q).length (c :: r) eat = some (if eat then (p ++ (c :: r)).length else p.length, true) := by
  unfold boundary
  rw [if_neg (by simp)]
  obtain ⟨fuel', h1, h2⟩ := boundaryLoop_skip c r post q p [] ((p ++ (c :: r) ++ q).length + 1) hc (by simp only [List.length_append]; omega)
  simp only [List.nil_append, List.length_nil] at h2
  rw [h2]
  have h3 := boundaryLoop_hit c post q p (c :: r) [] (c :: r) fuel' rfl (by simp) (by
    simp only [List.length_append, List.length_cons] at h1 ⊢; omega)
  simp only [List.append_nil, List.length_nil] at h3
  rw [h3]
  cases eat <;> simp

/-- One byte is found exactly when it is there. -/
theorem boundary_byte (data post : List UInt8) (c : UInt8) (eat : Bool) (hd : data ≠ []) : ∃ n, boundary (data ++ post) data.length [c] eat = some (n, decide (c ∈ data)) ∧
    (c ∈ data → ∃ p q, data = p ++ [c] ++ q ∧ c ∉ p ∧ n = if eat then p.length + 1 else p.length) ∧ (c ∉ data → n = data.length) := by
  by_cases hm : c ∈ data
  · obtain ⟨p, q, e, hp⟩ : ∃ p q, data = p ++ [c] ++ q ∧ c ∉ p := by
      clear hd
      induction data with
      | nil => simp at hm
      | cons x l ih =>
        by_cases hx : x = c
        · exact ⟨[], l, by simp [hx], by simp⟩
        · obtain ⟨p, q, e, hp⟩ := ih (by simpa [Ne.symm hx] using hm)
          exact ⟨x :: p, q, by rw [e]; simp, by simp [hp, Ne.symm hx]⟩
    subst e
    have := boundary_partial p q post c [] eat hp
    rw [this]
    refine ⟨_, by rw [decide_eq_true hm], ?_, fun h => absurd hm h⟩
    intro _
    exact ⟨p, q, rfl, hp, by cases eat <;> simp⟩
  · obtain ⟨n, f, e, _, ht, hf⟩ := boundary_sound data post [c] eat hd (by simp)
    have hff : f = false := by
      cases f
      · rfl
      · obtain ⟨p, q, e, _⟩ := ht rfl
        exact absurd (by rw [e]; simp) hm
    subst hff
    refine ⟨n, by rw [e]; simp [hm], fun h => absurd h hm, fun _ => ?_⟩
    obtain ⟨p, b, e1, e2, t, ht, e3⟩ := hf rfl
    cases b with
    | nil => rw [e1, e2]; simp
    | cons y b =>
      exfalso
      simp only [List.cons_append, List.cons.injEq] at e3
      have := e3.2
      simp at this
      exact ht this.2

example : boundary [13, 10, 45, 45] 4 [45, 45] false = some (2, true) := by decide +kernel

/-- **C32 is false** for `M_parser_consume_boundary`: after a mismatch the mismatching byte is not tried as the start of the
pattern, so the line feed after a doubled carriage return is not found, and everything is consumed. -/
theorem boundary_fails : boundary [97, 13, 13, 10] 4 [13, 10] false = some (4, false) ∧ First [97, 13, 13, 10] [13, 10] 2 := by
  refine ⟨by decide +kernel, ⟨[97, 13], [], rfl, rfl⟩, ?_⟩
  intro p q e
  match p, e with
  | [], e => simp at e
  | [a], e => simp at e
  | a :: b :: p, _ => simp

/-- With nothing left the byte behind the data is looked at: outside the buffer, or a stale byte that is reported as the
pattern. -/
theorem boundary_empty : boundary [] 0 [10] false = none ∧ boundary [10] 0 [10] true = some (1, true) := by decide +kernel

/-! ### Scans -/

/-- `n` bytes are taken: the longest beginning, of at most `m` bytes, that consists of bytes with `f`. -/
def Longest (f : UInt8 → Bool) (m : Nat) (rest : List UInt8) (n : Nat) : Prop :=
  n ≤ rest.length ∧ n ≤ m ∧ (∀ i < n, ∃ c, rest[i]? = some c ∧ f c = true) ∧ (n < m → ∀ c, rest[n]? = some c → f c = false)

/-- `M_parser_consume_predicate_max` takes the longest run of at most `max` accepted bytes. -/
theorem predMax_correct (f : UInt8 → Bool) (max : Nat) (rest : List UInt8) : Longest f max rest (predMax f max rest) := by
  induction rest generalizing max with
  | nil => cases max <;> simp [predMax, Longest]
  | cons c cs ih =>
    cases max with
    | zero => simp [predMax, Longest]
    | succ max =>
      unfold predMax
      cases hf : f c
      · simp only [Bool.false_eq_true, if_false]
        refine ⟨by simp, by simp, by simp, ?_⟩
        intro _ d hd
        simp at hd; rw [← hd]; exact hf
      · simp only [if_true]
        obtain ⟨h1, h2, h3, h4⟩ := ih max
        refine ⟨by simp; exact h1, by omega, ?_, ?_⟩
        · intro i hi
          cases i with
          | zero => exact ⟨c, rfl, hf⟩
          | succ i => simpa using h3 i (by omega)
        · intro hn d hd
          rw [List.getElem?_cons_succ] at hd
          exact h4 (by omega) d hd

example : predMax Chr.isDigit 2 [49, 50, 51] = 2 ∧ predMax Chr.isDigit 5 [49, 97] = 1 := by decide

/-- `M_parser_consume_charset` and `M_parser_consume_not_charset` take the longest run of bytes (not) in a nonempty set. -/
theorem charset_correct (set : List UInt8) (incl : Bool) (rest : List UInt8) (hs : set ≠ []) :
    Longest (fun c => if incl then set.contains c else !set.contains c) rest.length rest (charset set incl rest) := by
  have h0 : ¬ set.length = 0 := fun h => hs (List.length_eq_zero_iff.mp h)
  induction rest with
  | nil => simp [charset, Longest]
  | cons c cs ih =>
    unfold charset
    rw [if_neg h0]
    by_cases hf : (if incl then set.contains c else !set.contains c) = true
    · rw [if_pos hf]
      obtain ⟨h1, h2, h3, h4⟩ := ih
      refine ⟨by simp; exact h1, by simp; exact h1, ?_, ?_⟩
      · intro i hi
        cases i with
        | zero => exact ⟨c, rfl, hf⟩
        | succ i => simpa using h3 i (by omega)
      · intro hn d hd
        rw [List.getElem?_cons_succ] at hd
        exact h4 (by rw [List.length_cons] at hn; omega) d hd
    · rw [if_neg hf]
      refine ⟨by simp, by simp, by simp, ?_⟩
      intro _ d hd
      simp at hd; rw [← hd]
      exact Bool.eq_false_iff.mpr hf

example : charset [97, 98] true [97, 98, 97, 99] = 3 ∧ charset [97, 98] false [99, 97] = 1 := by decide

/-- `M_parser_consume_eol` takes everything up to and including the first line feed, or everything. -/
theorem eol_correct (rest : List UInt8) : (∃ p q, rest = p ++ [10] ++ q ∧ 10 ∉ p ∧ eol rest = p.length + 1) ∨ (10 ∉ rest ∧ eol rest = rest.length) := by
  induction rest with
  | nil => right; simp [eol]
  | cons c cs ih =>
    unfold eol
    by_cases hc : c = 10
    · rw [if_pos hc]; left; exact ⟨[], cs, by simp [hc], by simp, rfl⟩
    · rw [if_neg hc]
      rcases ih with ⟨p, q, h1, h2, h3⟩ | ⟨h1, h2⟩
      · left; exact ⟨c :: p, q, by rw [h1]; simp, by simp [h2, Ne.symm hc], by rw [h3]; rfl⟩
      · right; exact ⟨by simp [h1, Ne.symm hc], by rw [h2]; rfl⟩

example : eol [97, 10, 98] = 2 ∧ eol [97] = 1 := by decide

/-- `M_parser_consume_whitespace`: without `M_PARSER_WHITESPACE_TO_NEWLINE` the longest run of blanks; with it the run ends
behind the first line feed met. -/
theorem whitespace_correct (nl sp : Bool) (rest : List UInt8) :
    Longest (fun c => (nl && c == 10) || (if sp then c == 32 else Chr.isSpace c)) rest.length (rest.take (whitespace nl sp rest)) (whitespace nl sp rest) ∧
    (∀ c, rest[whitespace nl sp rest]? = some c → (nl = true ∧ rest[whitespace nl sp rest - 1]? = some 10 ∧ 0 < whitespace nl sp rest) ∨ (if sp then c ≠ 32 else Chr.isSpace c = false)) ∧
    (nl = true → ∀ i, i + 1 < whitespace nl sp rest → rest[i]? ≠ some 10) := by
  have hle : ∀ l : List UInt8, whitespace nl sp l ≤ l.length := by
    intro l
    induction l with
    | nil => simp [whitespace]
    | cons c cs ih =>
      unfold whitespace
      rw [List.length_cons]
      split
      · omega
      · by_cases h2 : (if sp then c ≠ 32 else Chr.isSpace c = false)
        · rw [if_pos h2]; omega
        · rw [if_neg h2]; omega
  have hall : ∀ l : List UInt8, ∀ i < whitespace nl sp l, ∃ c, l[i]? = some c ∧ ((nl && c == 10) || (if sp then c == 32 else Chr.isSpace c)) = true := by
    intro l
    induction l with
    | nil => intro i hi; simp [whitespace] at hi
    | cons c cs ih =>
      intro i hi
      unfold whitespace at hi
      by_cases h1 : nl = true ∧ c = 10
      · rw [if_pos h1] at hi
        have : i = 0 := by omega
        subst this
        exact ⟨c, rfl, by simp [h1.1, h1.2]⟩
      · rw [if_neg h1] at hi
        by_cases h2 : (if sp then c ≠ 32 else Chr.isSpace c = false)
        · rw [if_pos h2] at hi; omega
        · rw [if_neg h2] at hi
          cases i with
          | zero =>
            refine ⟨c, rfl, ?_⟩
            cases sp <;> simp_all
          | succ i => simpa using ih i (by omega)
  refine ⟨⟨by rw [List.length_take]; have := hle rest; omega, hle rest, ?_, ?_⟩, ?_, ?_⟩
  · intro i hi
    obtain ⟨c, h1, h2⟩ := hall rest i hi
    exact ⟨c, by rw [List.getElem?_take_of_lt hi]; exact h1, h2⟩
  · intro _ c hc
    rw [List.getElem?_take] at hc
    simp at hc
  · clear hall hle
    induction rest with
    | nil => intro c hc; simp at hc
    | cons c cs ih =>
      unfold whitespace
      by_cases h1 : nl = true ∧ c = 10
      · rw [if_pos h1]; intro d _; left; exact ⟨h1.1, by simp [h1.2], by omega⟩
      · rw [if_neg h1]
        by_cases h2 : (if sp then c ≠ 32 else Chr.isSpace c = false)
        · rw [if_pos h2]
          intro d hd
          simp at hd
          right; rw [← hd]; exact h2
        · rw [if_neg h2]
          intro d hd
          rw [List.getElem?_cons_succ] at hd
          rcases ih d hd with ⟨a1, a2, a3⟩ | a
          · left
            refine ⟨a1, ?_, by omega⟩
            rw [Nat.add_sub_cancel]
            have : whitespace nl sp cs = (whitespace nl sp cs - 1) + 1 := by omega
            rw [this, List.getElem?_cons_succ]; exact a2
          · exact Or.inr a
  · clear hall hle
    intro hnl
    induction rest with
    | nil => intro i hi; simp [whitespace] at hi
    | cons c cs ih =>
      intro i hi
      unfold whitespace at hi
      by_cases h1 : nl = true ∧ c = 10
      · rw [if_pos h1] at hi; omega
      · rw [if_neg h1] at hi
        by_cases h2 : (if sp then c ≠ 32 else Chr.isSpace c = false)
        · rw [if_pos h2] at hi; omega
        · rw [if_neg h2] at hi
          cases i with
          | zero => intro h; simp at h; exact h1 ⟨hnl, h⟩
          | succ i => simpa using ih i (by omega)

example : whitespace true false [32, 10, 32] = 2 ∧ whitespace false false [32, 10, 32, 97] = 3 ∧ whitespace false true [32, 9] = 1 := by decide

/-! ### Splitting -/

/-- Joined with the pattern between the sections. -/
def join (pat : List UInt8) : List (List UInt8) → List UInt8
  | [] => []
  | [x] => x
  | x :: xs => x ++ pat ++ join pat xs

/-- The sections of `rest`: joining them gives it back; every section but the last ends at the first occurrence of the
pattern; and the last holds none, unless the greatest number is reached (0 is no limit). -/
inductive Sections (pat : List UInt8) (max : Nat) : Nat → List UInt8 → List (List UInt8) → Prop
  | last (k : Nat) (rest : List UInt8) (h : (∀ p q, rest ≠ p ++ pat ++ q) ∨ (max ≠ 0 ∧ k + 1 = max)) : Sections pat max k rest [rest]
  | more (k : Nat) (x rest : List UInt8) (xs : List (List UInt8)) (h : First (x ++ pat ++ rest) pat x.length) (hm : max = 0 ∨ k + 1 ≠ max) (t : Sections pat max (k + 1) rest xs) :
      Sections pat max k (x ++ pat ++ rest) (x :: xs)

theorem Sections.ne {pat : List UInt8} {max k : Nat} {rest : List UInt8} {xs : List (List UInt8)} (h : Sections pat max k rest xs) : xs ≠ [] := by cases h <;> simp

theorem Sections.single {pat : List UInt8} {max k : Nat} {rest x : List UInt8} (h : Sections pat max k rest [x]) : (∀ p q, rest ≠ p ++ pat ++ q) ∨ (max ≠ 0 ∧ k + 1 = max) := by
  generalize e : [x] = xs at h
  cases h with
  | last _ _ h => exact h
  | more _ _ _ _ _ _ t =>
    simp only [List.cons.injEq] at e
    exact absurd e.2.symm t.ne

theorem Sections.join {pat : List UInt8} {max k : Nat} {rest : List UInt8} {xs : List (List UInt8)} (h : Sections pat max k rest xs) : Scan.join pat xs = rest := by
  induction h with
  | last => rfl
  | more k x rest xs h hm t ih =>
    have := t.ne
    cases xs with
    | nil => exact absurd rfl this
    | cons y ys => simp only [Scan.join]; rw [ih]

theorem Sections.count {pat : List UInt8} {max k : Nat} {rest : List UInt8} {xs : List (List UInt8)} (h : Sections pat max k rest xs) (hm : max ≠ 0) (hk : k < max) : k + xs.length ≤ max := by
  induction h with
  | last => simp; omega
  | more k x rest xs h hm' t ih =>
    have := ih (by omega)
    simp only [List.length_cons]; omega

/-- There is only one way to split. -/
theorem Sections.unique {pat : List UInt8} {max k : Nat} {rest : List UInt8} {xs : List (List UInt8)} (h : Sections pat max k rest xs) : ∀ {ys : List (List UInt8)}, Sections pat max k rest ys → xs = ys := by
  induction h with
  | last k rest h =>
    intro ys h2
    cases h2 with
    | last => rfl
    | more _ x rest' xs' hf hm t =>
      rcases h with h | ⟨h, h'⟩
      · exact absurd rfl (h x rest')
      · omega
  | more k x rest xs hf hm t ih =>
    intro ys h2
    generalize e : x ++ pat ++ rest = w at h2
    cases h2 with
    | last _ _ h =>
      rcases h with h | ⟨h, h'⟩
      · exact absurd e.symm (h x rest)
      · omega
    | more _ x' rest' xs' hf' hm' t' =>
      have hlen : x.length = x'.length := by
        rw [e] at hf
        have a := hf.2 x' rest' rfl
        have b := hf'.2 x rest e.symm
        omega
      have e2 := List.append_inj (by simpa only [List.append_assoc] using e) hlen
      have e3 := List.append_inj e2.2 rfl
      have e4 := e3.2
      have e1 := e2.1
      subst e1 e4
      rw [ih t']

theorem untilLen_eat (rest pat : List UInt8) (hp : pat ≠ []) : ∃ n, untilLen rest pat true = some n ∧
    ((n = 0 ∧ ∀ p q, rest ≠ p ++ pat ++ q) ∨ (∃ x r, rest = x ++ pat ++ r ∧ n = x.length + pat.length ∧ First (x ++ pat ++ r) pat x.length)) := by
  obtain ⟨n, h1, h2⟩ := until_correct rest pat true hp
  refine ⟨n, h1, ?_⟩
  rcases h2 with ⟨k, h, e⟩ | ⟨h, e⟩
  · right
    obtain ⟨x, r, e1, e2⟩ := h.1
    exact ⟨x, r, e1, by rw [e, e2]; rfl, by rw [e2, ← e1]; exact h⟩
  · exact Or.inl ⟨e, h⟩

theorem drop_section (x pat r : List UInt8) : (x ++ pat ++ r).drop (x.length + pat.length) = r := by
  rw [← List.length_append, List.drop_left]

theorem take_section (x pat r : List UInt8) : (x ++ pat ++ r).take (x.length + pat.length - pat.length) = x := by
  rw [Nat.add_sub_cancel, List.append_assoc, List.take_left]

/-- The first pass counts the sections of the second. -/
theorem split_sections (pat : List UInt8) (max : Nat) (hp : pat ≠ []) : ∀ (f1 f2 : Nat) (rest : List UInt8) (out : List (List UInt8)), rest.length < f1 → rest.length < f2 →
    (max ≠ 0 → out.length + 1 ≤ max) → (max = 0 ∨ out.length + 1 ≠ max) →
    ∃ cnt xs, countLoop pat max f1 rest (out.length + 1) = some cnt ∧ Sections pat max out.length rest xs ∧ (cnt = out.length + 1 ↔ ∀ p q, rest ≠ p ++ pat ++ q) ∧ out.length + 1 ≤ cnt ∧
      ∀ slots, cnt ≤ slots → splitLoop pat max slots f2 rest out = some (out ++ xs) := by
  have hp0 : pat.length ≠ 0 := fun h => hp (List.length_eq_zero_iff.mp h)
  have empty_none : ∀ p q : List UInt8, ([] : List UInt8) ≠ p ++ pat ++ q := by
    intro p q e
    have := congrArg List.length e
    simp only [List.length_nil, List.length_append] at this; omega
  intro f1
  induction f1 with
  | zero => intro f2 rest out h; omega
  | succ f1 ih =>
    intro f2 rest out h1 h2 hmax hne
    cases f2 with
    | zero => omega
    | succ f2 =>
      unfold countLoop
      obtain ⟨n, e1, e2⟩ := untilLen_eat rest pat hp
      rw [e1, Option.bind_some]
      rcases e2 with ⟨hn, hno⟩ | ⟨x, r, er, hn, hfirst⟩
      · rw [if_pos hn]
        refine ⟨_, [rest], rfl, .last _ _ (Or.inl hno), ⟨fun _ => hno, fun _ => rfl⟩, Nat.le_refl _, ?_⟩
        intro slots _
        unfold splitLoop
        by_cases hr : rest.length = 0
        · rw [if_pos hr, List.length_eq_zero_iff.mp hr]
        · rw [if_neg hr, if_neg (by omega), e1, Option.bind_some, if_pos hn]
      · have hn0 : n ≠ 0 := by omega
        have hrl : rest.length = x.length + pat.length + r.length := by rw [er]; simp only [List.length_append]
        have hex : ¬ ∀ p q, rest ≠ p ++ pat ++ q := fun h => h x r er
        have hsplit : ∀ slots, out.length + 2 ≤ slots → splitLoop pat max slots (f2 + 1) rest out = splitLoop pat max slots f2 r (out ++ [x]) := by
          intro slots hs
          conv => lhs; unfold splitLoop
          rw [if_neg (by omega), if_neg (by omega), e1, Option.bind_some, if_neg hn0, if_neg (by omega), hn, er, drop_section, take_section]
        rw [if_neg hn0]
        by_cases hm : max ≠ 0 ∧ out.length + 1 + 1 = max
        · rw [if_pos hm]
          refine ⟨_, [x, r], rfl, ?_, ?_, by omega, ?_⟩
          · rw [er]
            exact .more _ _ _ _ hfirst hne (.last _ _ (Or.inr hm))
          · constructor
            · intro h; omega
            · intro h; exact absurd h hex
          · intro slots hs
            rw [hsplit slots hs]
            cases f2 with
            | zero => omega
            | succ f2 =>
              unfold splitLoop
              by_cases hr : r.length = 0
              · rw [if_pos hr, List.length_eq_zero_iff.mp hr]; simp
              · rw [if_neg hr, if_pos (by simp only [List.length_append, List.length_singleton]; exact hm)]; simp
        · rw [if_neg hm]
          have hdrop : rest.drop n = r := by rw [hn, er]; exact drop_section _ _ _
          rw [hdrop]
          obtain ⟨cnt, xs, a1, a2, a3, a4, a5⟩ := ih f2 r (out ++ [x]) (by omega) (by omega) (by simp only [List.length_append, List.length_singleton]; omega) (by simp only [List.length_append, List.length_singleton]; omega)
          simp only [List.length_append, List.length_singleton] at a1 a2 a3 a4
          refine ⟨cnt, x :: xs, a1, ?_, ?_, by omega, ?_⟩
          · rw [er]
            exact .more _ _ _ _ hfirst hne a2
          · constructor
            · intro h; omega
            · intro h; exact absurd h hex
          · intro slots hs
            rw [hsplit slots (by omega), a5 slots hs]; simp

/-- **C56.** `M_parser_split_pat` with a nonempty pattern stores within its array and yields the sections of the remaining bytes,
without the last one if that is empty and the flag does not ask for it; with `M_PARSER_SPLIT_FLAG_NODELIM_ERROR` no
array comes back exactly when the pattern does not occur.  A greatest number of 1 is treated by `split_one`. -/
theorem split_correct (rest pat : List UInt8) (max : Nat) (keep err : Bool) (hp : pat ≠ []) (hm : max ≠ 1) :
    ∃ xs, Sections pat max 0 rest xs ∧ split rest pat max keep err =
      some (if err = true ∧ xs = [rest] then none else some (if keep = false ∧ xs.getLast? = some [] then xs.dropLast else xs)) := by
  have hp0 : pat.length ≠ 0 := fun h => hp (List.length_eq_zero_iff.mp h)
  obtain ⟨cnt, xs, h1, h2, h3, _, h4⟩ := split_sections pat max hp (rest.length + 1) (rest.length + 1) rest [] (by omega) (by omega) (by simp; omega) (by simp; omega)
  refine ⟨xs, h2, ?_⟩
  simp only [List.length_nil, Nat.zero_add] at h1 h3 h4
  have hcnt : cnt = 1 ↔ xs = [rest] := by
    rw [h3]
    constructor
    · intro h; exact h2.unique (.last _ _ (Or.inl h))
    · intro e
      rw [e] at h2
      rcases h2.single with h | h
      · exact h
      · exact absurd h.2.symm hm
  unfold split
  rw [h1, Option.bind_some, h4 cnt (Nat.le_refl _)]
  by_cases he : err = true ∧ xs = [rest]
  · rw [if_pos he, if_pos ⟨hcnt.mpr he.2, he.1⟩]
  · rw [if_neg he, if_neg (fun h => he ⟨h.2, hcnt.mp h.1⟩), Option.map_some, List.nil_append]
    congr 1
    split <;> rfl

theorem countLoop_some (pat : List UInt8) (max : Nat) (hp : pat ≠ []) : ∀ (f : Nat) (rest : List UInt8) (k : Nat), rest.length < f → ∃ cnt, countLoop pat max f rest k = some cnt ∧ k ≤ cnt ∧ (cnt = k ↔ ∀ p q, rest ≠ p ++ pat ++ q) := by
  have hp0 : pat.length ≠ 0 := fun h => hp (List.length_eq_zero_iff.mp h)
  intro f
  induction f with
  | zero => intro rest k h; omega
  | succ f ih =>
    intro rest k h
    unfold countLoop
    obtain ⟨n, e1, e2⟩ := untilLen_eat rest pat hp
    rw [e1, Option.bind_some]
    rcases e2 with ⟨hn, hno⟩ | ⟨x, r, er, hn, hfirst⟩
    · rw [if_pos hn]; exact ⟨k, rfl, Nat.le_refl _, fun _ => hno, fun _ => rfl⟩
    · have hrl : rest.length = x.length + pat.length + r.length := by rw [er]; simp only [List.length_append]
      have hex : ¬ ∀ p q, rest ≠ p ++ pat ++ q := fun h => h x r er
      rw [if_neg (by omega)]
      split
      · exact ⟨_, rfl, by omega, by constructor; (intro h; omega); (intro h; exact absurd h hex)⟩
      · have hdrop : rest.drop n = r := by rw [hn, er]; exact drop_section _ _ _
        rw [hdrop]
        obtain ⟨cnt, a1, a2, a3⟩ := ih r (k + 1) (by omega)
        exact ⟨cnt, a1, by omega, by constructor; (intro h; omega); (intro h; exact absurd h hex)⟩

/-- **C56** with a greatest number of 1: everything is one section, absent if empty. -/
theorem split_one (rest pat : List UInt8) (keep err : Bool) (hp : pat ≠ []) : ∃ b, (b = true ↔ err = true ∧ ∀ p q, rest ≠ p ++ pat ++ q) ∧
    split rest pat 1 keep err = some (if b then none else some (if keep = false ∧ rest = [] then [] else [rest])) := by
  obtain ⟨cnt, h1, _, h2⟩ := countLoop_some pat 1 hp (rest.length + 1) rest 1 (by omega)
  refine ⟨decide (cnt = 1 ∧ err = true), by rw [decide_eq_true_iff, h2]; exact And.comm, ?_⟩
  unfold split
  rw [h1, Option.bind_some]
  by_cases hc : cnt = 1 ∧ err = true
  · simp [hc]
  · have hs : splitLoop pat 1 cnt (rest.length + 1) rest [] = some [rest] := by
      unfold splitLoop
      by_cases hr : rest.length = 0
      · rw [if_pos hr, List.length_eq_zero_iff.mp hr]; rfl
      · rw [if_neg hr, if_pos (by simp)]; rfl
    simp only [hc, if_false, decide_false, Bool.false_eq_true, hs, Option.map_some, List.getLast?_singleton, Option.some.injEq, List.dropLast_singleton]
    split <;> rfl

/-- **C56.** With no limit, joining what `M_parser_split_pat` yields (keeping an empty last section) with the pattern gives the
input back. -/
theorem split_join (rest pat : List UInt8) (max : Nat) (hp : pat ≠ []) (hm : max ≠ 1) : ∃ xs, split rest pat max true false = some (some xs) ∧ join pat xs = rest ∧ (max ≠ 0 → xs.length ≤ max) := by
  obtain ⟨xs, h1, h2⟩ := split_correct rest pat max true false hp hm
  refine ⟨xs, by simpa using h2, h1.join, fun h => ?_⟩
  have := h1.count h (by omega)
  omega

example : split [97, 44, 44, 98, 44] [44] 0 false false = some (some [[97], [], [98]]) ∧ split [97, 44, 44, 98, 44] [44] 0 true false = some (some [[97], [], [98], []]) ∧
    split [97, 44, 44, 98, 44] [44] 2 false false = some (some [[97], [44, 98, 44]]) ∧ split [97] [44] 0 false true = some none ∧ split [] [44] 0 false false = some (some []) := by decide +kernel

/-! ### Framed messages -/

/-- **C57.** A message without ETX bytes, framed and followed by its checksum and anything, is returned whole, and exactly
the frame is consumed.  The message is not empty, or something follows the frame. -/
theorem frame_correct (msg tail : List UInt8) (stx etx : Bool) (hm : 3 ∉ msg) (hn : msg ≠ [] ∨ tail ≠ []) :
    frame ([2] ++ msg ++ [3] ++ [lrc ((if stx then [2] else []) ++ msg ++ (if etx then [3] else []))] ++ tail) stx etx = some (.success, some msg, msg.length + 3) := by
  generalize hl : lrc ((if stx then [2] else []) ++ msg ++ (if etx then [3] else [])) = s
  have hlen : ([2] ++ msg ++ [3] ++ [s] ++ tail).length = msg.length + 3 + tail.length := by simp only [List.length_append, List.length_singleton]; omega
  unfold frame
  have h4 : ¬ ([2] ++ msg ++ [3] ++ [s] ++ tail).length < 4 := by
    rw [hlen]
    rcases hn with h | h
    · have : msg.length ≠ 0 := fun e => h (List.length_eq_zero_iff.mp e)
      omega
    · have : tail.length ≠ 0 := fun e => h (List.length_eq_zero_iff.mp e)
      omega
  rw [if_neg h4, if_neg (by simp)]
  obtain ⟨n, e1, e2⟩ := untilLen_eat ([2] ++ msg ++ [3] ++ [s] ++ tail) [3] (by simp)
  have hnn : n = msg.length + 2 := by
    rcases e2 with ⟨_, h⟩ | ⟨x, r, ex, hx, hf⟩
    · exact absurd (by simp) (h ([2] ++ msg) ([s] ++ tail))
    · have h1 := hf.2 ([2] ++ msg) ([s] ++ tail) (by rw [← ex]; simp)
      have h2 : msg.length + 1 ≤ x.length := by
        apply Classical.byContradiction
        intro hlt
        have g : ([2] ++ msg ++ [3] ++ [s] ++ tail)[x.length]? = some 3 := by
          rw [ex, List.append_assoc, List.getElem?_append_right (Nat.le_refl _), Nat.sub_self]; rfl
        have e' : [2] ++ msg ++ [3] ++ [s] ++ tail = (2 :: msg) ++ ([3] ++ ([s] ++ tail)) := by simp
        rw [e', List.getElem?_append_left (by simp; omega)] at g
        have := List.mem_of_getElem? g
        simp at this
        exact hm this
      simp only [List.length_append, List.length_singleton] at h1 hx
      omega
  rw [e1, Option.bind_some, if_neg (by omega), hnn]
  have e3 : [2] ++ msg ++ [3] ++ [s] ++ tail = (2 :: (msg ++ [3])) ++ ([s] ++ tail) := by simp
  have hl2 : msg.length + 2 = (2 :: (msg ++ [3]) : List UInt8).length := by simp
  rw [e3, hl2, List.drop_left, List.take_left]
  simp only [List.singleton_append]
  have ea : ∀ l : List UInt8, (l ++ [(3 : UInt8)]).take ((l ++ [(3 : UInt8)]).length - 1) = l := by intro l; simp
  have hs : lrc (if etx then (if stx then 2 :: (msg ++ [3]) else (2 :: (msg ++ [3]) : List UInt8).drop 1) else
      (if stx then 2 :: (msg ++ [3]) else (2 :: (msg ++ [3]) : List UInt8).drop 1).take ((if stx then 2 :: (msg ++ [3]) else (2 :: (msg ++ [3]) : List UInt8).drop 1).length - 1)) = s := by
    rw [← hl]
    cases stx <;> cases etx <;> simp only [Bool.false_eq_true, if_false, if_true, List.drop_one, List.tail_cons, List.nil_append, List.append_nil, List.singleton_append, List.cons_append]
    · rw [ea]
    · rw [← List.cons_append, ea]
  simp only [List.drop_one, List.tail_cons] at hs
  simp [hs]

/-- **C57.** A message is only returned as good if the bytes are a frame with the right checksum; and if there is no frame
nothing is consumed. -/
theorem frame_sound (rest : List UInt8) (stx etx : Bool) : ∃ e out n, frame rest stx etx = some (e, out, n) ∧ n ≤ rest.length ∧
    (e = .success → ∃ msg tail, 3 ∉ msg ∧ rest = [2] ++ msg ++ [3] ++ [lrc ((if stx then [2] else []) ++ msg ++ (if etx then [3] else []))] ++ tail ∧ out = some msg ∧ n = msg.length + 3) ∧
    (e ≠ .success ∧ e ≠ .badLrc → out = none ∧ n = 0) := by
  unfold frame
  by_cases h4 : rest.length < 4
  · rw [if_pos h4]; exact ⟨_, _, _, rfl, by omega, by simp, by simp⟩
  rw [if_neg h4]
  by_cases h2 : rest.head? ≠ some 2
  · rw [if_pos h2]; exact ⟨_, _, _, rfl, by omega, by simp, by simp⟩
  rw [if_neg h2]
  obtain ⟨n, e1, e2⟩ := untilLen_eat rest [3] (by simp)
  rw [e1, Option.bind_some]
  rcases e2 with ⟨hn, h⟩ | ⟨x, r, ex, hx, hf⟩
  · rw [if_pos hn]; exact ⟨_, _, _, rfl, by omega, by simp, by simp⟩
  simp only [List.length_singleton] at hx
  rw [if_neg (by omega)]
  obtain ⟨msg, rfl⟩ : ∃ msg, x = 2 :: msg := by
    cases x with
    | nil => simp [ex] at h2
    | cons y ys => exact ⟨ys, by simp [ex] at h2; rw [h2]⟩
  have hdrop : rest.drop n = r := by rw [hx, ex]; exact drop_section (2 :: msg) [3] r
  have htake : rest.take n = 2 :: (msg ++ [3]) := by
    rw [hx, ex]
    have : (2 :: msg).length + 1 = ((2 :: msg) ++ [3]).length := by simp
    rw [this, List.take_left]; rfl
  rw [hdrop, htake]
  cases r with
  | nil => exact ⟨_, _, _, rfl, by omega, by simp, by simp⟩
  | cons b r =>
    refine ⟨_, _, _, rfl, ?_, ?_, ?_⟩
    · rw [hx, ex]; simp only [List.length_append, List.length_cons, List.length_nil]; omega
    · intro hs
      refine ⟨msg, r, ?_, ?_, ?_, ?_⟩
      · intro hm
        obtain ⟨u, v, euv⟩ := List.append_of_mem hm
        have := hf.2 (2 :: u) (v ++ [3] ++ (b :: r)) (by rw [euv]; simp)
        rw [euv] at this
        simp at this
        omega
      · have ea : ∀ l : List UInt8, (l ++ [(3 : UInt8)]).take ((l ++ [(3 : UInt8)]).length - 1) = l := by intro l; simp
        have hb : lrc ((if stx then [2] else []) ++ msg ++ (if etx then [3] else [])) = b := by
          revert hs
          cases stx <;> cases etx <;> simp only [Bool.false_eq_true, if_false, if_true, List.drop_one, List.tail_cons, List.nil_append, List.append_nil, List.singleton_append, List.cons_append]
          · rw [ea]; intro hs; exact Classical.byContradiction fun h => by simp [h] at hs
          · intro hs; exact Classical.byContradiction fun h => by simp [h] at hs
          · rw [← List.cons_append, ea]; intro hs; exact Classical.byContradiction fun h => by simp [h] at hs
          · intro hs; exact Classical.byContradiction fun h => by simp [h] at hs
        rw [hb, ex]; simp
      · have : n - 2 = msg.length := by rw [hx, List.length_cons]; omega
        rw [this]; simp
      · rw [hx, List.length_cons]
    · intro hs
      exfalso
      by_cases hl : lrc (if etx then (if stx then 2 :: (msg ++ [3]) else (2 :: (msg ++ [3]) : List UInt8).drop 1) else
        (if stx then 2 :: (msg ++ [3]) else (2 :: (msg ++ [3]) : List UInt8).drop 1).take ((if stx then 2 :: (msg ++ [3]) else (2 :: (msg ++ [3]) : List UInt8).drop 1).length - 1)) = b
      · exact hs.1 (if_pos hl)
      · exact hs.2 (if_neg hl)

example : frame [2, 65, 66, 3, 0, 9] false true = some (.success, some [65, 66], 5) ∧ frame [2, 65, 66, 3] true true = some (.noLrc, none, 0) ∧ frame [2, 3, 1] false false = some (.invalid, none, 0) := by decide +kernel

end Verif.Parser.Scan
