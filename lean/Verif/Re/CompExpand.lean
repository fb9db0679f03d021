import Verif.Re.CompLemmas
/-! Expanding counted repetitions keeps the meaning of a tree. -/
namespace Verif.Re
variable {alnum : Nat → Bool} {ml : Bool} {w : List Nat}

theorem iter_mono {x y : Ast} (h : ∀ i j, Mat alnum ml w x i j → Mat alnum ml w y i j) {lo : Nat} {hi : Option Nat} {i j : Nat}
    (hm : Mat alnum ml w (.iter x lo hi) i j) : Mat alnum ml w (.iter y lo hi) i j := by
  generalize hX : Ast.iter x lo hi = X at hm
  induction hm generalizing lo hi with
  | none hw => cases hX; exact .none hw
  | more h0 hx _ _ ih => cases hX; exact .more h0 (h _ _ hx) (ih rfl)
  | _ => cases hX

theorem cat_iff {l r : Ast} {i j : Nat} :
    Mat alnum ml w (.cat l r) i j ↔ ∃ k, Mat alnum ml w l i k ∧ Mat alnum ml w r k j := by
  constructor
  · intro h; cases h with | cat a b => exact ⟨_, a, b⟩
  · rintro ⟨k, a, b⟩; exact .cat a b

theorem alt_iff {l r : Ast} {i j : Nat} : Mat alnum ml w (.alt l r) i j ↔ Mat alnum ml w l i j ∨ Mat alnum ml w r i j := by
  constructor
  · intro h
    cases h with
    | altL a => exact Or.inl a
    | altR a => exact Or.inr a
  · rintro (a | a)
    · exact .altL a
    · exact .altR a

theorem empty_iff {i j : Nat} : Mat alnum ml w .empty i j ↔ i = j ∧ i ≤ w.length := by
  constructor
  · intro h; cases h with | empty h => exact ⟨rfl, h⟩
  · rintro ⟨rfl, h⟩; exact .empty h

theorem chars_iff {rs : List (Int × Int)} {p i j : Nat} : Mat alnum ml w (.chars rs p) i j ↔
    ∃ c, ∃ r ∈ rs, j = i + 1 ∧ w[i]? = some c ∧ r.1 ≤ c ∧ (c : Int) ≤ r.2 := by
  constructor
  · intro h
    cases h with | chars hr hc h1 h2 => exact ⟨_, _, hr, rfl, hc, h1, h2⟩
  · rintro ⟨c, r, hr, rfl, hc, h1, h2⟩; exact .chars hr hc h1 h2

theorem tag_iff {k i j : Nat} : Mat alnum ml w (.tag k) i j ↔ i = j ∧ i ≤ w.length := by
  constructor
  · intro h; cases h with | tag h => exact ⟨rfl, h⟩
  · rintro ⟨rfl, h⟩; exact .tag h

theorem copy_mat (rm : Bool) (add : Nat) (x : Ast) : ∀ (i j : Nat), Mat alnum ml w (copy rm add x).1 i j ↔ Mat alnum ml w x i j := by
  induction x with
  | chars rs p => intro i j; simp only [copy, chars_iff]
  | empty => intro i j; exact Iff.rfl
  | tag k => intro i j; simp only [copy]; split <;> simp only [tag_iff, empty_iff]
  | asr a => intro i j; exact Iff.rfl
  | cat l r ih1 ih2 => intro i j; simp only [copy, cat_iff, ih1, ih2]
  | alt l r ih1 ih2 => intro i j; simp only [copy, alt_iff, ih1, ih2]
  | iter x lo hi ih =>
    intro i j
    exact ⟨iter_mono fun i j => (ih i j).mp, iter_mono fun i j => (ih i j).mpr⟩

/-- Exactly so many matches one after the other. -/
def Times (alnum : Nat → Bool) (ml : Bool) (w : List Nat) (x : Ast) : Nat → Nat → Nat → Prop
  | 0, i, j => i = j ∧ i ≤ w.length
  | n + 1, i, j => ∃ k, Mat alnum ml w x i k ∧ Times alnum ml w x n k j

theorem times_le {x : Ast} {n : Nat} : ∀ {i j : Nat}, Times alnum ml w x n i j → i ≤ j ∧ j ≤ w.length := by
  induction n with
  | zero => rintro i j ⟨rfl, h⟩; exact ⟨Nat.le_refl _, h⟩
  | succ n ih =>
    rintro i j ⟨k, h, ht⟩
    have := mat_le h
    have := ih ht
    omega

theorem times_add {x : Ast} {m n : Nat} : ∀ {i j : Nat},
    Times alnum ml w x (m + n) i j ↔ ∃ k, Times alnum ml w x m i k ∧ Times alnum ml w x n k j := by
  induction m with
  | zero =>
    intro i j
    rw [Nat.zero_add]
    constructor
    · intro h
      have := times_le h
      exact ⟨i, ⟨rfl, by omega⟩, h⟩
    · rintro ⟨k, ⟨rfl, _⟩, h⟩; exact h
  | succ m ih =>
    intro i j
    rw [show m + 1 + n = (m + n) + 1 by omega]
    simp only [Times]
    constructor
    · rintro ⟨k, h, ht⟩
      obtain ⟨k', h1, h2⟩ := ih.mp ht
      exact ⟨k', ⟨k, h, h1⟩, h2⟩
    · rintro ⟨k', ⟨k, h, h1⟩, h2⟩
      exact ⟨k, h, ih.mpr ⟨k', h1, h2⟩⟩

theorem iter_times {x : Ast} {lo : Nat} {hi : Option Nat} {i j : Nat} :
    Mat alnum ml w (.iter x lo hi) i j ↔ ∃ n, lo ≤ n ∧ (∀ m, hi = some m → n ≤ m) ∧ Times alnum ml w x n i j := by
  constructor
  · intro hm
    generalize hX : Ast.iter x lo hi = X at hm
    induction hm generalizing lo hi with
    | none hw => cases hX; exact ⟨0, by omega, by simp, rfl, hw⟩
    | more h0 hx _ _ ih =>
      cases hX
      obtain ⟨n, h1, h2, h3⟩ := ih rfl
      refine ⟨n + 1, by omega, ?_, _, hx, h3⟩
      rintro m rfl
      have := h2 (m - 1) rfl
      have : m ≠ 0 := fun e => h0 (by rw [e])
      omega
    | _ => cases hX
  · rintro ⟨n, h1, h2, h3⟩
    induction n generalizing lo hi i with
    | zero =>
      obtain ⟨rfl, h3⟩ := h3
      obtain rfl : lo = 0 := by omega
      exact .none h3
    | succ n ih =>
      obtain ⟨k, hx, ht⟩ := h3
      refine .more ?_ hx (ih (by omega) ?_ ht)
      · intro e
        have := h2 0 e
        omega
      · intro m hm
        rcases hi with _ | m'
        · cases hm
        · have := h2 m' rfl
          simp only [Option.map_some, Option.some.injEq] at hm
          omega

/-- What an optional tree matches; none matches nothing. -/
def Opt (alnum : Nat → Bool) (ml : Bool) (w : List Nat) (o : Option Ast) (i j : Nat) : Prop :=
  match o with
  | none => i = j ∧ i ≤ w.length
  | some s => Mat alnum ml w s i j

theorem opt_le {o : Option Ast} {i j : Nat} (h : Opt alnum ml w o i j) : i ≤ j ∧ j ≤ w.length := by
  cases o with
  | none => obtain ⟨rfl, h⟩ := h; exact ⟨Nat.le_refl _, h⟩
  | some s => exact mat_le h

theorem seq1_mat (x : Ast) : ∀ (n : Nat) (acc : Option Ast) (add save i j : Nat),
    Opt alnum ml w (seq1 x n acc add save).1 i j ↔ ∃ k, Opt alnum ml w acc i k ∧ Times alnum ml w x n k j := by
  intro n
  induction n with
  | zero =>
    intro acc add save i j
    simp only [seq1, Times]
    constructor
    · intro h; exact ⟨j, h, rfl, (opt_le h).2⟩
    · rintro ⟨k, h, rfl, _⟩; exact h
  | succ n ih =>
    intro acc add save i j
    simp only [seq1]
    rw [ih]
    cases acc with
    | none =>
      simp only [Opt, after, Times, copy_mat]
      constructor
      · rintro ⟨k, h, ht⟩
        have := mat_le h
        exact ⟨i, ⟨rfl, by omega⟩, k, h, ht⟩
      · rintro ⟨_, ⟨rfl, _⟩, k, h, ht⟩; exact ⟨k, h, ht⟩
    | some s =>
      simp only [Opt, after, Times, cat_iff, copy_mat]
      constructor
      · rintro ⟨k, ⟨m, h1, h2⟩, ht⟩; exact ⟨m, h1, k, h2, ht⟩
      · rintro ⟨m, h1, k, h2, ht⟩; exact ⟨k, ⟨m, h1, h2⟩, ht⟩

/-- At most so many matches. -/
def Upto (alnum : Nat → Bool) (ml : Bool) (w : List Nat) (x : Ast) (n i j : Nat) : Prop :=
  ∃ m, m ≤ n ∧ Times alnum ml w x m i j

theorem upto_succ {x : Ast} {n i j : Nat} : Upto alnum ml w x (n + 1) i j ↔
    (i = j ∧ i ≤ w.length) ∨ ∃ k, Mat alnum ml w x i k ∧ Upto alnum ml w x n k j := by
  constructor
  · rintro ⟨m, hm, ht⟩
    cases m with
    | zero => exact Or.inl ht
    | succ m =>
      obtain ⟨k, h, ht⟩ := ht
      exact Or.inr ⟨k, h, m, by omega, ht⟩
  · rintro (h | ⟨k, h, m, hm, ht⟩)
    · exact ⟨0, by omega, h⟩
    · exact ⟨m + 1, by omega, k, h, ht⟩

theorem seq2_mat (x : Ast) : ∀ (n : Nat) (acc : Option Ast) (add save a : Nat),
    (∀ i j, Opt alnum ml w acc i j ↔ Upto alnum ml w x a i j) →
    ∀ i j, Opt alnum ml w (seq2 x n acc add save).1 i j ↔ Upto alnum ml w x (a + n) i j := by
  intro n
  induction n with
  | zero => intro acc add save a h; exact h
  | succ n ih =>
    intro acc add save a h
    rw [show a + (n + 1) = (a + 1) + n by omega]
    simp only [seq2]
    apply ih
    intro i j
    rw [upto_succ]
    simp only [← h]
    cases acc with
    | none =>
      simp only [Opt, before, alt_iff, empty_iff, copy_mat]
      constructor
      · rintro (h | h)
        · exact Or.inl h
        · exact Or.inr ⟨j, h, rfl, (mat_le h).2⟩
      · rintro (h | ⟨k, h, rfl, _⟩)
        · exact Or.inl h
        · exact Or.inr h
    | some s => simp only [Opt, before, alt_iff, empty_iff, cat_iff, copy_mat]

theorem upto_zero {x : Ast} (i j : Nat) : Opt alnum ml w none i j ↔ Upto alnum ml w x 0 i j := by
  constructor
  · intro h; exact ⟨0, Nat.le_refl _, h⟩
  · rintro ⟨m, hm, ht⟩
    obtain rfl : m = 0 := by omega
    exact ht

theorem opt_cat (o : Option Ast) (s : Ast) (i j : Nat) :
    Mat alnum ml w (after o s) i j ↔ ∃ k, Opt alnum ml w o i k ∧ Mat alnum ml w s k j := by
  cases o with
  | none =>
    simp only [Opt, after]
    constructor
    · intro h
      have := mat_le h
      exact ⟨i, ⟨rfl, by omega⟩, h⟩
    · rintro ⟨k, ⟨rfl, _⟩, h⟩; exact h
  | some t => simp only [Opt, after, cat_iff]

theorem opt_opt (o p : Option Ast) (i j : Nat) :
    Mat alnum ml w (both o p) i j ↔ ∃ k, Opt alnum ml w o i k ∧ Opt alnum ml w p k j := by
  rcases o with _ | t <;> rcases p with _ | s <;> simp only [Opt, both, cat_iff, empty_iff]
  · constructor
    · rintro ⟨rfl, h⟩; exact ⟨i, ⟨rfl, h⟩, rfl, h⟩
    · rintro ⟨k, ⟨rfl, h⟩, rfl, _⟩; exact ⟨rfl, h⟩
  · constructor
    · intro h
      have := mat_le h
      exact ⟨i, ⟨rfl, by omega⟩, h⟩
    · rintro ⟨k, ⟨rfl, _⟩, h⟩; exact h
  · constructor
    · intro h; exact ⟨j, h, rfl, (mat_le h).2⟩
    · rintro ⟨k, h, rfl, _⟩; exact h

theorem seq1_zero (x : Ast) (n add save i j : Nat) :
    Opt alnum ml w (seq1 x n none add save).1 i j ↔ Times alnum ml w x n i j := by
  rw [seq1_mat]
  constructor
  · rintro ⟨k, ⟨rfl, _⟩, h⟩; exact h
  · intro h
    have := times_le h
    exact ⟨i, ⟨rfl, by omega⟩, h⟩

theorem times_copy {x : Ast} (rm : Bool) (add : Nat) {n : Nat} : ∀ {i j : Nat},
    Times alnum ml w (copy rm add x).1 n i j ↔ Times alnum ml w x n i j := by
  induction n with
  | zero => exact Iff.rfl
  | succ n ih => intro i j; simp only [Times, copy_mat, ih]

theorem expandIter_mat (x : Ast) (lo : Nat) (hi : Option Nat) (add : Nat) (hb : ∀ m, hi = some m → lo ≤ m) (i j : Nat) :
    Mat alnum ml w (expandIter x lo hi add).1 i j ↔ Mat alnum ml w (.iter x lo hi) i j := by
  rw [iter_times]
  cases hi with
  | none =>
    simp only [expandIter]
    rw [opt_cat]
    simp only [seq1_zero, iter_times]
    constructor
    · rintro ⟨k, h1, n, _, _, h2⟩
      refine ⟨lo + n, by omega, by simp, times_add.mpr ⟨k, h1, ?_⟩⟩
      exact (times_copy _ _).mp h2
    · rintro ⟨n, h1, _, h2⟩
      obtain ⟨d, rfl⟩ := Nat.exists_eq_add_of_le h1
      obtain ⟨k, h3, h4⟩ := times_add.mp h2
      refine ⟨k, h3, d, by omega, by simp, ?_⟩
      exact (times_copy _ _).mpr h4
  | some m =>
    have hb := hb m rfl
    simp only [expandIter]
    rw [opt_opt]
    simp only [seq1_zero, seq2_mat x (m - lo) none _ _ 0 upto_zero]
    constructor
    · rintro ⟨k, h1, n, hn, h2⟩
      refine ⟨lo + n, by omega, ?_, times_add.mpr ⟨k, h1, h2⟩⟩
      rintro _ ⟨⟩
      omega
    · rintro ⟨n, h1, h2, h3⟩
      have := h2 m rfl
      obtain ⟨d, rfl⟩ := Nat.exists_eq_add_of_le h1
      obtain ⟨k, h4, h5⟩ := times_add.mp h3
      exact ⟨k, h4, d, by omega, h5⟩

theorem expand_mat {x : Ast} (hB : Bounds x) : ∀ (d : Nat) (e : Ex) (i j : Nat),
    Mat alnum ml w (expand d x e).1 i j ↔ Mat alnum ml w x i j := by
  induction x with
  | chars rs p => intro d e i j; simp only [expand, chars_iff]
  | empty => intro d e i j; exact Iff.rfl
  | tag k => intro d e i j; exact Iff.rfl
  | asr a => intro d e i j; exact Iff.rfl
  | cat l r ih1 ih2 => intro d e i j; simp only [expand, cat_iff, ih1 hB.1, ih2 hB.2]
  | alt l r ih1 ih2 => intro d e i j; simp only [expand, alt_iff, ih1 hB.1, ih2 hB.2]
  | iter x lo hi ih =>
    intro d e i j
    have hx := ih hB.1 (d + 1) { e with add := if counted lo hi then 0 else e.add }
    have key : Mat alnum ml w (.iter (expand (d + 1) x { e with add := if counted lo hi then 0 else e.add }).1 lo hi) i j ↔
        Mat alnum ml w (.iter x lo hi) i j :=
      ⟨iter_mono fun i j => (hx i j).mp, iter_mono fun i j => (hx i j).mpr⟩
    rw [← key]
    simp only [expand]
    by_cases hc : counted lo hi = true
    · simp only [if_pos hc]
      exact expandIter_mat _ _ _ _ (fun m hm => (hB.2 m hm).1) i j
    · simp only [if_neg hc]

/-! ## What remains are the simple repetitions -/

theorem copy_simple {rm : Bool} {add : Nat} {x : Ast} (h : Simple x) : Simple (copy rm add x).1 := by
  induction x with
  | chars rs p => trivial
  | empty => trivial
  | tag k => simp only [copy]; split <;> trivial
  | asr a => trivial
  | cat l r ih1 ih2 => exact ⟨ih1 h.1, ih2 h.2⟩
  | alt l r ih1 ih2 => exact ⟨ih1 h.1, ih2 h.2⟩
  | iter x lo hi ih => exact ⟨ih h.1, h.2⟩

theorem seq1_simple {x : Ast} (h : Simple x) : ∀ (n : Nat) (acc : Option Ast) (add save : Nat), (∀ s, acc = some s → Simple s) →
    ∀ s, (seq1 x n acc add save).1 = some s → Simple s := by
  intro n
  induction n with
  | zero => intro acc add save ha; exact ha
  | succ n ih =>
    intro acc add save ha
    simp only [seq1]
    apply ih
    rintro s ⟨⟩
    cases acc with
    | none => exact copy_simple h
    | some t => exact ⟨ha t rfl, copy_simple h⟩

theorem seq2_simple {x : Ast} (h : Simple x) : ∀ (n : Nat) (acc : Option Ast) (add save : Nat), (∀ s, acc = some s → Simple s) →
    ∀ s, (seq2 x n acc add save).1 = some s → Simple s := by
  intro n
  induction n with
  | zero => intro acc add save ha; exact ha
  | succ n ih =>
    intro acc add save ha
    simp only [seq2]
    apply ih
    rintro s ⟨⟩
    cases acc with
    | none => exact ⟨trivial, copy_simple h⟩
    | some t => exact ⟨trivial, copy_simple h, ha t rfl⟩

theorem expandIter_simple {x : Ast} (h : Simple x) (lo : Nat) (hi : Option Nat) (add : Nat) : Simple (expandIter x lo hi add).1 := by
  have h1 := seq1_simple h lo none add add (by simp)
  cases hi with
  | none =>
    simp only [expandIter]
    have hs : ∀ a, Simple (Ast.iter (copy false a x).1 0 none) := fun a => ⟨copy_simple h, by omega, Or.inl rfl⟩
    rcases hq : (seq1 x lo none add add).1 with _ | t <;> simp only [after]
    · exact hs _
    · exact ⟨h1 t hq, hs _⟩
  | some m =>
    simp only [expandIter]
    have h2 := seq2_simple h (m - lo) none (seq1 x lo none add add).2.1 (seq1 x lo none add add).2.2 (by simp)
    rcases hq : (seq1 x lo none add add).1 with _ | t <;>
    rcases hp : (seq2 x (m - lo) none (seq1 x lo none add add).2.1 (seq1 x lo none add add).2.2).1 with _ | s <;> simp only [both]
    · trivial
    · exact h2 s hp
    · exact h1 t hq
    · exact ⟨h1 t hq, h2 s hp⟩

theorem expand_simple {x : Ast} (hB : Bounds x) : ∀ (d : Nat) (e : Ex), Simple (expand d x e).1 := by
  induction x with
  | chars rs p => intro d e; trivial
  | empty => intro d e; trivial
  | tag k => intro d e; trivial
  | asr a => intro d e; trivial
  | cat l r ih1 ih2 => intro d e; exact ⟨ih1 hB.1 _ _, ih2 hB.2 _ _⟩
  | alt l r ih1 ih2 => intro d e; exact ⟨ih1 hB.1 _ _, ih2 hB.2 _ _⟩
  | iter x lo hi ih =>
    intro d e
    simp only [expand]
    by_cases hc : counted lo hi = true
    · simp only [if_pos hc]
      exact expandIter_simple (ih hB.1 _ _) _ _ _
    · simp only [if_neg hc]
      simp only [counted, Bool.or_eq_true, decide_eq_true_eq, not_or] at hc
      refine ⟨ih hB.1 _ _, by omega, ?_⟩
      rcases hi with _ | m
      · exact Or.inl rfl
      · have := hB.2 m rfl
        have := hc.2
        simp only [decide_eq_true_eq] at this
        exact Or.inr (by congr 1; omega)

/-! ## Calm trees stay calm -/

theorem copy_null {rm : Bool} {add : Nat} {x : Ast} : Null (copy rm add x).1 ↔ Null x := by
  induction x with
  | chars rs p => exact Iff.rfl
  | empty => exact Iff.rfl
  | tag k => simp only [copy]; split <;> exact Iff.rfl
  | asr a => exact Iff.rfl
  | cat l r ih1 ih2 => simp only [copy, Null, ih1, ih2]
  | alt l r ih1 ih2 => simp only [copy, Null, ih1, ih2]
  | iter x lo hi ih => simp only [copy, Null, ih]

theorem copy_bare {rm : Bool} {add : Nat} {x : Ast} (h : Bare x) : Bare (copy rm add x).1 := by
  induction x with
  | chars rs p => trivial
  | empty => trivial
  | tag k => simp only [copy]; split <;> trivial
  | asr a => exact h
  | cat l r ih1 ih2 => exact ⟨ih1 h.1, ih2 h.2⟩
  | alt l r ih1 ih2 => exact ⟨ih1 h.1, ih2 h.2⟩
  | iter x lo hi ih => exact ih h

theorem copy_calm {rm : Bool} {add : Nat} {x : Ast} (h : Calm x) : Calm (copy rm add x).1 := by
  induction x with
  | chars rs p => trivial
  | empty => trivial
  | tag k => simp only [copy]; split <;> trivial
  | asr a => trivial
  | cat l r ih1 ih2 => exact ⟨ih1 h.1, ih2 h.2⟩
  | alt l r ih1 ih2 => exact ⟨ih1 h.1, ih2 h.2.1, fun a b => copy_bare (h.2.2 (copy_null.mp a) (copy_null.mp b))⟩
  | iter x lo hi ih => exact ⟨ih h.1, fun a b => copy_bare (h.2 a (copy_null.mp b))⟩

theorem seq1_calm {x : Ast} (h : Calm x) : ∀ (n : Nat) (acc : Option Ast) (add save : Nat), (∀ s, acc = some s → Calm s) →
    ∀ s, (seq1 x n acc add save).1 = some s → Calm s := by
  intro n
  induction n with
  | zero => intro acc add save ha; exact ha
  | succ n ih =>
    intro acc add save ha
    simp only [seq1]
    apply ih
    rintro s ⟨⟩
    cases acc with
    | none => exact copy_calm h
    | some t => exact ⟨ha t rfl, copy_calm h⟩

theorem seq2_calm {x : Ast} (h : Calm x) : ∀ (n : Nat) (acc : Option Ast) (add save : Nat), (∀ s, acc = some s → Calm s) →
    ∀ s, (seq2 x n acc add save).1 = some s → Calm s := by
  intro n
  induction n with
  | zero => intro acc add save ha; exact ha
  | succ n ih =>
    intro acc add save ha
    simp only [seq2]
    apply ih
    rintro s ⟨⟩
    cases acc with
    | none => exact ⟨trivial, copy_calm h, fun _ _ => trivial⟩
    | some t => exact ⟨trivial, ⟨copy_calm h, ha t rfl⟩, fun _ _ => trivial⟩

theorem expandIter_calm {x : Ast} (h : Calm x) (lo : Nat) (hi : Option Nat) (add : Nat)
    (hn : hi = none → Null x → Bare x) : Calm (expandIter x lo hi add).1 := by
  have h1 := seq1_calm h lo none add add (by simp)
  cases hi with
  | none =>
    simp only [expandIter]
    have hs : ∀ a, Calm (Ast.iter (copy false a x).1 0 none) :=
      fun a => ⟨copy_calm h, fun _ b => copy_bare (hn rfl (copy_null.mp b))⟩
    rcases hq : (seq1 x lo none add add).1 with _ | t <;> simp only [after]
    · exact hs _
    · exact ⟨h1 t hq, hs _⟩
  | some m =>
    simp only [expandIter]
    have h2 := seq2_calm h (m - lo) none (seq1 x lo none add add).2.1 (seq1 x lo none add add).2.2 (by simp)
    rcases hq : (seq1 x lo none add add).1 with _ | t <;>
    rcases hp : (seq2 x (m - lo) none (seq1 x lo none add add).2.1 (seq1 x lo none add add).2.2).1 with _ | s <;> simp only [both]
    · trivial
    · exact h2 s hp
    · exact h1 t hq
    · exact ⟨h1 t hq, h2 s hp⟩

theorem seq1_null {x : Ast} : ∀ (n : Nat) (acc : Option Ast) (add save : Nat), (∀ s, acc = some s → Null s → Null x) →
    (0 < n ∨ acc ≠ none) → ∃ s, (seq1 x n acc add save).1 = some s ∧ (Null s → Null x) := by
  intro n
  induction n with
  | zero =>
    intro acc add save ha h0
    cases acc with
    | none => simp at h0
    | some s => exact ⟨s, rfl, ha s rfl⟩
  | succ n ih =>
    intro acc add save ha _
    simp only [seq1]
    apply ih
    · rintro s ⟨⟩
      cases acc with
      | none => exact copy_null.mp
      | some t => exact fun h => ha t rfl h.1
    · exact Or.inr (by simp)

theorem expandIter_null {x : Ast} {lo : Nat} {hi : Option Nat} {add : Nat} (h : Null (expandIter x lo hi add).1) : lo = 0 ∨ Null x := by
  by_cases h0 : lo = 0
  · exact Or.inl h0
  · refine Or.inr ?_
    obtain ⟨s, hs, hn⟩ := seq1_null (x := x) lo none add add (by simp) (Or.inl (by omega))
    cases hi with
    | none =>
      simp only [expandIter, hs, after] at h
      exact hn h.1
    | some m =>
      simp only [expandIter, hs] at h
      rcases hp : (seq2 x (m - lo) none (seq1 x lo none add add).2.1 (seq1 x lo none add add).2.2).1 with _ | t <;>
        simp only [hp, both] at h
      · exact hn h
      · exact hn h.1

theorem expand_null {x : Ast} : ∀ {d : Nat} {e : Ex}, Null (expand d x e).1 → Null x := by
  induction x with
  | chars rs p => exact fun h => h
  | empty => exact fun h => h
  | tag k => exact fun h => h
  | asr a => exact fun h => h
  | cat l r ih1 ih2 => exact fun h => ⟨ih1 h.1, ih2 h.2⟩
  | alt l r ih1 ih2 => exact fun h => h.elim (fun h => Or.inl (ih1 h)) (fun h => Or.inr (ih2 h))
  | iter x lo hi ih =>
    intro d e h
    simp only [expand] at h
    by_cases hc : counted lo hi = true
    · simp only [if_pos hc] at h
      exact (expandIter_null h).elim Or.inl (fun h => Or.inr (ih h))
    · simp only [if_neg hc] at h
      exact h.elim Or.inl (fun h => Or.inr (ih h))

theorem seq1_bare {x : Ast} (h : Bare x) : ∀ (n : Nat) (acc : Option Ast) (add save : Nat), (∀ s, acc = some s → Bare s) →
    ∀ s, (seq1 x n acc add save).1 = some s → Bare s := by
  intro n
  induction n with
  | zero => intro acc add save ha; exact ha
  | succ n ih =>
    intro acc add save ha
    simp only [seq1]
    apply ih
    rintro s ⟨⟩
    cases acc with
    | none => exact copy_bare h
    | some t => exact ⟨ha t rfl, copy_bare h⟩

theorem seq2_bare {x : Ast} (h : Bare x) : ∀ (n : Nat) (acc : Option Ast) (add save : Nat), (∀ s, acc = some s → Bare s) →
    ∀ s, (seq2 x n acc add save).1 = some s → Bare s := by
  intro n
  induction n with
  | zero => intro acc add save ha; exact ha
  | succ n ih =>
    intro acc add save ha
    simp only [seq2]
    apply ih
    rintro s ⟨⟩
    cases acc with
    | none => exact ⟨trivial, copy_bare h⟩
    | some t => exact ⟨trivial, copy_bare h, ha t rfl⟩

theorem expand_bare {x : Ast} (h : Bare x) : ∀ (d : Nat) (e : Ex), Bare (expand d x e).1 := by
  induction x with
  | chars rs p => intro d e; trivial
  | empty => intro d e; trivial
  | tag k => intro d e; trivial
  | asr a => intro d e; exact h
  | cat l r ih1 ih2 => intro d e; exact ⟨ih1 h.1 _ _, ih2 h.2 _ _⟩
  | alt l r ih1 ih2 => intro d e; exact ⟨ih1 h.1 _ _, ih2 h.2 _ _⟩
  | iter x lo hi ih =>
    intro d e
    simp only [expand]
    by_cases hc : counted lo hi = true
    · simp only [if_pos hc]
      generalize hy : (expand (d + 1) x _).1 = y
      have hy : Bare y := hy ▸ ih h _ _
      have h1 := seq1_bare hy lo none e.add e.add (by simp)
      cases hi with
      | none =>
        simp only [expandIter]
        have hs : ∀ a, Bare (Ast.iter (copy false a y).1 0 none) := fun a => copy_bare (x := y) hy
        rcases hq : (seq1 y lo none e.add e.add).1 with _ | t <;> simp only [after]
        · exact hs _
        · exact ⟨h1 t hq, hs _⟩
      | some m =>
        simp only [expandIter]
        have h2 := seq2_bare hy (m - lo) none (seq1 y lo none e.add e.add).2.1 (seq1 y lo none e.add e.add).2.2 (by simp)
        rcases hq : (seq1 y lo none e.add e.add).1 with _ | t <;>
        rcases hp : (seq2 y (m - lo) none (seq1 y lo none e.add e.add).2.1 (seq1 y lo none e.add e.add).2.2).1 with _ | s <;> simp only [both]
        · trivial
        · exact h2 s hp
        · exact h1 t hq
        · exact ⟨h1 t hq, h2 s hp⟩
    · simp only [if_neg hc]
      exact ih h _ _

theorem expand_calm {x : Ast} (h : Calm x) : ∀ (d : Nat) (e : Ex), Calm (expand d x e).1 := by
  induction x with
  | chars rs p => intro d e; trivial
  | empty => intro d e; trivial
  | tag k => intro d e; trivial
  | asr a => intro d e; trivial
  | cat l r ih1 ih2 => intro d e; exact ⟨ih1 h.1 _ _, ih2 h.2 _ _⟩
  | alt l r ih1 ih2 =>
    intro d e
    exact ⟨ih1 h.1 _ _, ih2 h.2.1 _ _, fun a b => expand_bare (h.2.2 (expand_null a) (expand_null b)) _ _⟩
  | iter x lo hi ih =>
    intro d e
    simp only [expand]
    by_cases hc : counted lo hi = true
    · simp only [if_pos hc]
      refine expandIter_calm (ih h.1 _ _) _ _ _ ?_
      rintro rfl hn
      simp only [counted, Bool.or_false, decide_eq_true_eq] at hc
      exact expand_bare (h.2 (Or.inr ⟨hc, rfl⟩) (expand_null hn)) _ _
    · simp only [if_neg hc]
      exact ⟨ih h.1 _ _, fun a b => expand_bare (h.2 a (expand_null b)) _ _⟩

end Verif.Re
