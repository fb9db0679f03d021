import Verif.Re.CompExpand
/-! Where the copies of a counted repetition are put. -/
namespace Verif.Re

/-- The literals of a tree, as they are counted when it is copied. -/
def lits : Ast → Nat
  | .chars rs _ => rs.length
  | .empty => 0
  | .tag _ => 0
  | .asr _ => 0
  | .cat l r => lits l + lits r
  | .alt l r => lits l + lits r
  | .iter x _ _ => lits x

theorem copy_count (rm : Bool) (add : Nat) (x : Ast) : (copy rm add x).2 = lits x ∧ lits (copy rm add x).1 = lits x := by
  induction x with
  | chars rs p => exact ⟨rfl, rfl⟩
  | empty => exact ⟨rfl, rfl⟩
  | tag k => refine ⟨rfl, ?_⟩; simp only [copy]; split <;> rfl
  | asr a => exact ⟨rfl, rfl⟩
  | cat l r ih1 ih2 => simp only [copy, lits, ih1, ih2, and_self]
  | alt l r ih1 ih2 => simp only [copy, lits, ih1, ih2, and_self]
  | iter x lo hi ih => simp only [copy, lits, ih, and_self]

/-- The positions of a tree are apart, and within bounds. -/
def In (x : Ast) (a b : Nat) : Prop := Apart x ∧ ∀ p ∈ places x, a ≤ p ∧ p < b

theorem in_wide {x : Ast} {a b a' b' : Nat} (h : In x a b) (ha : a' ≤ a) (hb : b ≤ b') : In x a' b' :=
  ⟨h.1, fun p hp => by have := h.2 p hp; omega⟩

theorem in_cat {l r : Ast} {a b c d : Nat} (h1 : In l a b) (h2 : In r c d) (h : b ≤ c) (hb : b ≤ d) (hc : a ≤ c) : In (.cat l r) a d := by
  refine ⟨⟨h1.1, h2.1, fun p hp hq => ?_⟩, fun p hp => ?_⟩
  · have := h1.2 p hp
    have := h2.2 p hq
    omega
  · simp only [places, List.mem_append] at hp
    rcases hp with hp | hp
    · have := h1.2 p hp; omega
    · have := h2.2 p hp; omega

/-- The same, the other way round. -/
theorem in_cat' {l r : Ast} {a b c d : Nat} (h1 : In l c d) (h2 : In r a b) (h : b ≤ c) (hb : b ≤ d) (hc : a ≤ c) : In (.cat l r) a d := by
  refine ⟨⟨h1.1, h2.1, fun p hp hq => ?_⟩, fun p hp => ?_⟩
  · have := h1.2 p hp
    have := h2.2 p hq
    omega
  · simp only [places, List.mem_append] at hp
    rcases hp with hp | hp
    · have := h1.2 p hp; omega
    · have := h2.2 p hp; omega

theorem in_alt {l r : Ast} {a b c d : Nat} (h1 : In l a b) (h2 : In r c d) (h : b ≤ c) (hb : b ≤ d) (hc : a ≤ c) : In (.alt l r) a d :=
  in_cat h1 h2 h hb hc

theorem in_opt {s : Ast} {a b : Nat} (h : In s a b) : In (.alt .empty s) a b := by
  refine ⟨⟨trivial, h.1, fun p hp => by simp [places] at hp⟩, fun p hp => ?_⟩
  simp only [places, List.nil_append] at hp
  exact h.2 p hp

theorem copy_places (rm : Bool) (add : Nat) (x : Ast) : places (copy rm add x).1 = (places x).map (· + add) := by
  induction x with
  | chars rs p => rfl
  | empty => rfl
  | tag k => simp only [copy]; split <;> rfl
  | asr a => rfl
  | cat l r ih1 ih2 => simp only [copy, places, ih1, ih2, List.map_append]
  | alt l r ih1 ih2 => simp only [copy, places, ih1, ih2, List.map_append]
  | iter x lo hi ih => simp only [copy, places, ih]

theorem copy_in {rm : Bool} {add : Nat} {x : Ast} {a b : Nat} (h : In x a b) : In (copy rm add x).1 (a + add) (b + add) := by
  refine ⟨?_, fun p hp => ?_⟩
  · have h := h.1
    induction x with
    | chars rs p => trivial
    | empty => trivial
    | tag k => simp only [copy]; split <;> trivial
    | asr a => trivial
    | cat l r ih1 ih2 =>
      rename_i h'
      refine ⟨ih1 ⟨h.1, fun p hp => h'.2 p (by simp [places, hp])⟩ h.1, ih2 ⟨h.2.1, fun p hp => h'.2 p (by simp [places, hp])⟩ h.2.1, ?_⟩
      simp only [copy_places, List.mem_map, not_exists, not_and]
      rintro p ⟨q, hq, rfl⟩ q' hq' e
      exact h.2.2 q hq (by rw [show q = q' by omega]; exact hq')
    | alt l r ih1 ih2 =>
      rename_i h'
      refine ⟨ih1 ⟨h.1, fun p hp => h'.2 p (by simp [places, hp])⟩ h.1, ih2 ⟨h.2.1, fun p hp => h'.2 p (by simp [places, hp])⟩ h.2.1, ?_⟩
      simp only [copy_places, List.mem_map, not_exists, not_and]
      rintro p ⟨q, hq, rfl⟩ q' hq' e
      exact h.2.2 q hq (by rw [show q = q' by omega]; exact hq')
    | iter x lo hi ih => rename_i h'; exact ih h' h
  · rw [copy_places] at hp
    obtain ⟨q, hq, rfl⟩ := List.mem_map.mp hp
    have := h.2 q hq
    omega

/-- The copies so far, and where the last one was put. -/
structure Built (s : Ast) (c b save add L n : Nat) : Prop where
  inn : In s c (b + save)
  add : add = save + L
  le : c ≤ b + save
  cnt : lits s = n * L

section
variable {y : Ast} {A B : Nat} (hy : In y A B) (hle : A ≤ B) (hw : B - A ≤ lits y)
include hy hle hw

omit hw in
theorem built_one (rm : Bool) (add : Nat) : Built (copy rm add y).1 (A + add) B add (add + lits y) (lits y) 1 :=
  ⟨copy_in hy, rfl, by omega, by rw [(copy_count rm add y).2]; omega⟩

theorem seq1_more : ∀ (n : Nat) (s : Ast) (c save add k : Nat), Built s c B save add (lits y) k → c ≤ A + add →
    ∃ s', (seq1 y n (some s) add save).1 = some s' ∧
      (seq1 y n (some s) add save).2.1 = add + n * lits y ∧ (seq1 y n (some s) add save).2.2 = save + n * lits y ∧
      Built s' c B (save + n * lits y) (add + n * lits y) (lits y) (k + n) := by
  intro n
  induction n with
  | zero =>
    intro s c save add k hb _
    refine ⟨s, rfl, ?_, ?_, ?_⟩
    · simp [seq1]
    · simp [seq1]
    · simpa using hb
  | succ n ih =>
    intro s c save add k hb hc
    simp only [seq1, after, (copy_count _ _ _).1]
    have h0 := hb.add
    have h1 : Built (.cat s (copy (decide (0 < n)) add y).1) c B add (add + lits y) (lits y) (k + 1) := by
      refine ⟨in_cat hb.inn (copy_in hy) (by omega) (by omega) (by omega), rfl, by omega, ?_⟩
      simp only [lits, hb.cnt, (copy_count _ _ _).2, Nat.succ_mul]
    obtain ⟨s', e1, e2, e3, e4⟩ := ih _ c add (add + lits y) (k + 1) h1 (by omega)
    have e : save + (n + 1) * lits y = add + n * lits y := by rw [h0, Nat.succ_mul]; omega
    have e' : add + (n + 1) * lits y = add + lits y + n * lits y := by rw [Nat.succ_mul]; omega
    refine ⟨s', e1, by rw [e2, e'], by rw [e3, e], ?_⟩
    rw [e, e', show k + (n + 1) = k + 1 + n by omega]
    exact e4

theorem seq1_start (n add save : Nat) : ∃ s', (seq1 y (n + 1) none add save).1 = some s' ∧
      (seq1 y (n + 1) none add save).2.1 = add + (n + 1) * lits y ∧ (seq1 y (n + 1) none add save).2.2 = add + n * lits y ∧
      Built s' (A + add) B (add + n * lits y) (add + (n + 1) * lits y) (lits y) (n + 1) := by
  simp only [seq1, after, (copy_count _ _ _).1]
  obtain ⟨s', e1, e2, e3, e4⟩ := seq1_more hy hle hw n _ (A + add) add (add + lits y) 1 (built_one hy hle (decide (0 < n)) add) (by omega)
  have e' : add + (n + 1) * lits y = add + lits y + n * lits y := by rw [Nat.succ_mul]; omega
  refine ⟨s', e1, by rw [e2, e'], e3, ?_⟩
  rw [e', show n + 1 = 1 + n by omega]
  exact e4

theorem seq2_more : ∀ (n : Nat) (s : Ast) (c save add k : Nat), Built s c B save add (lits y) k → c ≤ A + add →
    ∃ s', (seq2 y n (some s) add save).1 = some s' ∧ (seq2 y n (some s) add save).2.2 = save + n * lits y ∧
      Built s' c B (save + n * lits y) (add + n * lits y) (lits y) (k + n) := by
  intro n
  induction n with
  | zero =>
    intro s c save add k hb _
    refine ⟨s, rfl, ?_, ?_⟩
    · simp [seq2]
    · simpa using hb
  | succ n ih =>
    intro s c save add k hb hc
    simp only [seq2, before, (copy_count _ _ _).1]
    have h0 := hb.add
    have h1 : Built (.alt .empty (.cat (copy false add y).1 s)) c B add (add + lits y) (lits y) (k + 1) := by
      refine ⟨in_opt (in_cat' (copy_in hy) hb.inn (by omega) (by omega) (by omega)), rfl, by omega, ?_⟩
      simp only [lits, hb.cnt, (copy_count _ _ _).2, Nat.succ_mul]
      omega
    obtain ⟨s', e1, e3, e4⟩ := ih _ c add (add + lits y) (k + 1) h1 (by omega)
    have e : save + (n + 1) * lits y = add + n * lits y := by rw [h0, Nat.succ_mul]; omega
    have e' : add + (n + 1) * lits y = add + lits y + n * lits y := by rw [Nat.succ_mul]; omega
    refine ⟨s', e1, by rw [e3, e], ?_⟩
    rw [e, e', show k + (n + 1) = k + 1 + n by omega]
    exact e4

theorem seq2_start (n add save : Nat) : ∃ s', (seq2 y (n + 1) none add save).1 = some s' ∧
      (seq2 y (n + 1) none add save).2.2 = add + n * lits y ∧
      Built s' (A + add) B (add + n * lits y) (add + (n + 1) * lits y) (lits y) (n + 1) := by
  simp only [seq2, before, (copy_count _ _ _).1]
  have h1 := built_one hy hle false add
  have h1 : Built (.alt .empty (copy false add y).1) (A + add) B add (add + lits y) (lits y) 1 :=
    ⟨in_opt h1.inn, h1.add, h1.le, by simpa [lits] using h1.cnt⟩
  obtain ⟨s', e1, e3, e4⟩ := seq2_more hy hle hw n _ (A + add) add (add + lits y) 1 h1 (by omega)
  have e' : add + (n + 1) * lits y = add + lits y + n * lits y := by rw [Nat.succ_mul]; omega
  refine ⟨s', e1, e3, ?_⟩
  rw [e', show n + 1 = 1 + n by omega]
  exact e4

theorem expandIter_in {lo : Nat} {hi : Option Nat} (add : Nat) (hc : counted lo hi = true) (hb : ∀ m, hi = some m → lo ≤ m) :
    In (expandIter y lo hi add).1 (A + add) (B + (expandIter y lo hi add).2) ∧ add ≤ (expandIter y lo hi add).2 ∧
      B + (expandIter y lo hi add).2 - (A + add) ≤ lits (expandIter y lo hi add).1 := by
  cases hi with
  | none =>
    simp only [counted, Bool.or_false, decide_eq_true_eq] at hc
    obtain ⟨n, rfl⟩ : ∃ n, lo = n + 1 := ⟨lo - 1, by omega⟩
    obtain ⟨s, e1, e2, e3, b⟩ := seq1_start hy hle hw n add add
    simp only [expandIter, e1, e2, after]
    have hm : (n + 1) * lits y = n * lits y + lits y := Nat.succ_mul _ _
    refine ⟨in_cat b.inn (a := A + add) (c := A + (add + (n + 1) * lits y)) (d := B + (add + (n + 1) * lits y)) ?_ (by omega) (by omega)
      (by omega), by omega, ?_⟩
    · obtain ⟨i1, i2⟩ := copy_in (rm := false) (add := add + (n + 1) * lits y) hy
      exact ⟨i1, i2⟩
    · simp only [lits, b.cnt, (copy_count _ _ _).2]
      omega
  | some m =>
    have hb := hb m rfl
    simp only [counted, Bool.or_eq_true, decide_eq_true_eq] at hc
    have hm1 : 1 < m := by omega
    rcases Nat.eq_zero_or_pos lo with rfl | hlo
    · obtain ⟨n, rfl⟩ : ∃ n, m = n + 1 := ⟨m - 1, by omega⟩
      obtain ⟨s, e1, e3, b⟩ := seq2_start hy hle hw n add add
      simp only [expandIter, seq1, Nat.sub_zero, e1, e3, both]
      have hm : (n + 1) * lits y = n * lits y + lits y := Nat.succ_mul _ _
      have := b.cnt
      exact ⟨b.inn, by omega, by omega⟩
    · obtain ⟨n, rfl⟩ : ∃ n, lo = n + 1 := ⟨lo - 1, by omega⟩
      obtain ⟨s, e1, e2, e3, b⟩ := seq1_start hy hle hw n add add
      have hm : (n + 1) * lits y = n * lits y + lits y := Nat.succ_mul _ _
      rcases Nat.eq_zero_or_pos (m - (n + 1)) with h0 | h0
      · simp only [expandIter, e1, e2, e3, h0, seq2, both]
        have := b.cnt
        exact ⟨b.inn, by omega, by omega⟩
      · obtain ⟨k, hk⟩ : ∃ k, m - (n + 1) = k + 1 := ⟨m - (n + 1) - 1, by omega⟩
        obtain ⟨t, f1, f3, b2⟩ := seq2_start hy hle hw k (add + (n + 1) * lits y) (add + n * lits y)
        simp only [expandIter, e1, e2, e3, hk, f1, f3, both]
        have hm2 : (k + 1) * lits y = k * lits y + lits y := Nat.succ_mul _ _
        have := b.cnt
        have := b2.cnt
        refine ⟨in_cat b.inn b2.inn (by omega) (by omega) (by omega), by omega, ?_⟩
        simp only [lits]
        omega
end

theorem numbered_le {x : Ast} : ∀ {a b : Nat}, Numbered x a b → a ≤ b := by
  induction x with
  | chars rs p => rintro a b ⟨_, _, rfl⟩; omega
  | empty => rintro a b rfl; omega
  | tag k => rintro a b rfl; omega
  | asr k => rintro a b rfl; omega
  | cat l r ih1 ih2 => rintro a b ⟨m, h1, h2⟩; have := ih1 h1; have := ih2 h2; omega
  | alt l r ih1 ih2 => rintro a b ⟨m, h1, h2⟩; have := ih1 h1; have := ih2 h2; omega
  | iter x lo hi ih => intro a b h; exact ih h

/-- Positions within bounds that leave no more room than there are literals. -/
def Fits (x : Ast) (a b : Nat) : Prop := In x a b ∧ b - a ≤ lits x

theorem fits_cat {l r : Ast} {a m b : Nat} (h1 : Fits l a m) (h2 : Fits r m b) (ha : a ≤ m) (hb : m ≤ b) : Fits (.cat l r) a b :=
  ⟨in_cat h1.1 h2.1 (by omega) (by omega) (by omega), by have := h1.2; have := h2.2; simp only [lits]; omega⟩

theorem fits_alt {l r : Ast} {a m b : Nat} (h1 : Fits l a m) (h2 : Fits r m b) (ha : a ≤ m) (hb : m ≤ b) : Fits (.alt l r) a b :=
  ⟨in_alt h1.1 h2.1 (by omega) (by omega) (by omega), by have := h1.2; have := h2.2; simp only [lits]; omega⟩

theorem fits_chars {rs : List (Int × Int)} {p : Nat} (h : rs ≠ []) : Fits (.chars rs p) p (p + 1) := by
  refine ⟨⟨trivial, fun q hq => ?_⟩, ?_⟩
  · simp only [places, List.mem_singleton] at hq; omega
  · have := List.length_pos_iff.mpr h; simp only [lits]; omega

theorem fits_nil {x : Ast} {a : Nat} (h : places x = []) (hA : Apart x) : Fits x a a :=
  ⟨⟨hA, by simp [h]⟩, by omega⟩

theorem counted_simple {lo : Nat} {hi : Option Nat} (h1 : lo ≤ 1) (h2 : hi = none ∨ hi = some 1) : counted lo hi = false := by
  rcases h2 with rfl | rfl <;> simp [counted] <;> omega

theorem expand_simple_fits {x : Ast} (hS : Simple x) : ∀ {d a b : Nat} {e : Ex}, 0 < d → Numbered x a b →
    (expand d x e).2 = e ∧ Fits (expand d x e).1 (a + e.add) (b + e.add) := by
  induction x with
  | chars rs p =>
    rintro d a b e _ ⟨h1, rfl, rfl⟩
    refine ⟨rfl, ?_⟩
    rw [show p + 1 + e.add = p + e.add + 1 by omega]
    exact fits_chars h1
  | empty => rintro d a b e _ rfl; exact ⟨rfl, fits_nil rfl trivial⟩
  | tag k => rintro d a b e _ rfl; exact ⟨rfl, fits_nil rfl trivial⟩
  | asr k => rintro d a b e _ rfl; exact ⟨rfl, fits_nil rfl trivial⟩
  | cat l r ih1 ih2 =>
    rintro d a b e hd ⟨m, h1, h2⟩
    obtain ⟨e1, f1⟩ := ih1 hS.1 (e := e) hd h1
    obtain ⟨e2, f2⟩ := ih2 hS.2 (e := e) hd h2
    have := numbered_le h1
    have := numbered_le h2
    simp only [expand, e1]
    exact ⟨e2, fits_cat f1 f2 (by omega) (by omega)⟩
  | alt l r ih1 ih2 =>
    rintro d a b e hd ⟨m, h1, h2⟩
    obtain ⟨e1, f1⟩ := ih1 hS.1 (e := e) hd h1
    obtain ⟨e2, f2⟩ := ih2 hS.2 (e := e) hd h2
    have := numbered_le h1
    have := numbered_le h2
    simp only [expand, e1]
    exact ⟨e2, fits_alt f1 f2 (by omega) (by omega)⟩
  | iter x lo hi ih =>
    intro d a b e hd h
    obtain ⟨hx, h1, h2⟩ := hS
    have hc := counted_simple h1 h2
    obtain ⟨e1, f1⟩ := ih hx (d := d + 1) (e := e) (by omega) h
    have hd : d ≠ 0 := by omega
    simp only [expand, hc, Bool.false_eq_true, if_false, if_neg hd]
    refine ⟨?_, f1⟩
    rw [e1]
    simp

theorem expand_inner_fits {x : Ast} (hB : Bounds x) (hS : Shallow1 x) : ∀ {d a b : Nat} {e : Ex}, 0 < d → Numbered x a b →
    e.add ≤ (expand d x e).2.add ∧ (expand d x e).2.total + e.add = e.total + (expand d x e).2.add ∧
      Fits (expand d x e).1 (a + e.add) (b + (expand d x e).2.add) := by
  induction x with
  | chars rs p =>
    rintro d a b e _ ⟨h1, rfl, rfl⟩
    refine ⟨Nat.le_refl _, rfl, ?_⟩
    simp only [expand]
    rw [show p + 1 + e.add = p + e.add + 1 by omega]
    exact fits_chars h1
  | empty => rintro d a b e _ rfl; exact ⟨Nat.le_refl _, rfl, fits_nil rfl trivial⟩
  | tag k => rintro d a b e _ rfl; exact ⟨Nat.le_refl _, rfl, fits_nil rfl trivial⟩
  | asr k => rintro d a b e _ rfl; exact ⟨Nat.le_refl _, rfl, fits_nil rfl trivial⟩
  | cat l r ih1 ih2 =>
    rintro d a b e hd ⟨m, h1, h2⟩
    obtain ⟨a1, t1, f1⟩ := ih1 hB.1 hS.1 (e := e) hd h1
    obtain ⟨a2, t2, f2⟩ := ih2 hB.2 hS.2 (e := (expand d l e).2) hd h2
    have := numbered_le h1
    have := numbered_le h2
    simp only [expand]
    exact ⟨by omega, by omega, fits_cat f1 f2 (by omega) (by omega)⟩
  | alt l r ih1 ih2 =>
    rintro d a b e hd ⟨m, h1, h2⟩
    obtain ⟨a1, t1, f1⟩ := ih1 hB.1 hS.1 (e := e) hd h1
    obtain ⟨a2, t2, f2⟩ := ih2 hB.2 hS.2 (e := (expand d l e).2) hd h2
    have := numbered_le h1
    have := numbered_le h2
    simp only [expand]
    exact ⟨by omega, by omega, fits_alt f1 f2 (by omega) (by omega)⟩
  | iter x lo hi ih =>
    intro d a b e hd h
    have hd : d ≠ 0 := by omega
    have := numbered_le h
    cases hc : counted lo hi with
    | false =>
      obtain ⟨e1, f1⟩ := expand_simple_fits hS (d := d + 1) (e := e) (by omega) h
      simp only [expand, hc, Bool.false_eq_true, if_false, if_neg hd]
      rw [e1]
      refine ⟨Nat.le_refl _, by simp, f1⟩
    | true =>
      obtain ⟨e1, f1⟩ := expand_simple_fits hS (d := d + 1) (e := { e with add := 0 }) (by omega) h
      simp only [Nat.add_zero] at f1
      obtain ⟨g1, g2, g3⟩ := expandIter_in f1.1 (by omega) f1.2 e.add hc (fun m hm => (hB.2 m hm).1)
      simp only [expand, hc, if_true, if_neg hd]
      rw [e1]
      exact ⟨g2, by simp only; omega, g1, g3⟩

theorem expand_fits {x : Ast} (hB : Bounds x) (hS : Shallow x) : ∀ {a b : Nat} {e : Ex}, e.add = e.total → Numbered x a b →
    e.add ≤ (expand 0 x e).2.add ∧ (expand 0 x e).2.add = (expand 0 x e).2.total ∧
      Fits (expand 0 x e).1 (a + e.add) (b + (expand 0 x e).2.add) := by
  induction x with
  | chars rs p =>
    rintro a b e he ⟨h1, rfl, rfl⟩
    refine ⟨Nat.le_refl _, he, ?_⟩
    simp only [expand]
    rw [show p + 1 + e.add = p + e.add + 1 by omega]
    exact fits_chars h1
  | empty => rintro a b e he rfl; exact ⟨Nat.le_refl _, he, fits_nil rfl trivial⟩
  | tag k => rintro a b e he rfl; exact ⟨Nat.le_refl _, he, fits_nil rfl trivial⟩
  | asr k => rintro a b e he rfl; exact ⟨Nat.le_refl _, he, fits_nil rfl trivial⟩
  | cat l r ih1 ih2 =>
    rintro a b e he ⟨m, h1, h2⟩
    obtain ⟨a1, t1, f1⟩ := ih1 hB.1 hS.1 he h1
    obtain ⟨a2, t2, f2⟩ := ih2 hB.2 hS.2 t1 h2
    have := numbered_le h1
    have := numbered_le h2
    simp only [expand]
    exact ⟨by omega, t2, fits_cat f1 f2 (by omega) (by omega)⟩
  | alt l r ih1 ih2 =>
    rintro a b e he ⟨m, h1, h2⟩
    obtain ⟨a1, t1, f1⟩ := ih1 hB.1 hS.1 he h1
    obtain ⟨a2, t2, f2⟩ := ih2 hB.2 hS.2 t1 h2
    have := numbered_le h1
    have := numbered_le h2
    simp only [expand]
    exact ⟨by omega, t2, fits_alt f1 f2 (by omega) (by omega)⟩
  | iter x lo hi ih =>
    rintro a b ⟨ad, tt⟩ he h
    simp only at he
    subst he
    have := numbered_le h
    cases hc : counted lo hi with
    | false =>
      obtain ⟨a1, t1, f1⟩ := expand_inner_fits hB.1 hS (d := 0 + 1) (e := ⟨ad, ad⟩) (by omega) h
      simp only [expand, hc, Bool.false_eq_true, if_false, if_true, Nat.sub_self, Nat.add_zero]
      simp only at a1 t1 f1
      refine ⟨by omega, trivial, ?_⟩
      rw [show (expand (0 + 1) x ⟨ad, ad⟩).2.total = (expand (0 + 1) x ⟨ad, ad⟩).2.add by omega]
      exact f1
    | true =>
      obtain ⟨a1, t1, f1⟩ := expand_inner_fits hB.1 hS (d := 0 + 1) (e := ⟨0, ad⟩) (by omega) h
      simp only [Nat.add_zero] at f1 t1 a1
      obtain ⟨g1, g2, g3⟩ := expandIter_in f1.1 (by omega) f1.2 ad hc (fun m hm => (hB.2 m hm).1)
      simp only [expand, hc, if_true]
      refine ⟨by omega, trivial, ?_⟩
      rw [t1, show ∀ n : Nat, ad ≤ n → b + (ad + (expand (0 + 1) x ⟨0, ad⟩).2.add + (n - ad)) =
        b + (expand (0 + 1) x ⟨0, ad⟩).2.add + n from fun n hn => by omega]
      · exact ⟨g1, g3⟩
      · exact g2

theorem maxPos_le {x : Ast} {n : Nat} (h : ∀ p ∈ places x, p < n) : maxPos x ≤ n := by
  induction x with
  | chars rs p => exact Nat.le_of_lt (h p (by simp [places]))
  | empty => exact Nat.zero_le _
  | tag k => exact Nat.zero_le _
  | asr k => exact Nat.zero_le _
  | cat l r ih1 ih2 =>
    exact Nat.max_le.mpr ⟨ih1 fun p hp => h p (by simp [places, hp]), ih2 fun p hp => h p (by simp [places, hp])⟩
  | alt l r ih1 ih2 =>
    exact Nat.max_le.mpr ⟨ih1 fun p hp => h p (by simp [places, hp]), ih2 fun p hp => h p (by simp [places, hp])⟩
  | iter x lo hi ih => exact ih h

/-- The positions after the expansion. -/
theorem expand_places {x : Ast} (hB : Bounds x) (hS : Shallow x) {n : Nat} (hN : Numbered x 0 n) :
    Apart (expand 0 x ⟨0, 0⟩).1 ∧
    ∀ p ∈ places (expand 0 x ⟨0, 0⟩).1, p < max (n + (expand 0 x ⟨0, 0⟩).2.total) (maxPos (expand 0 x ⟨0, 0⟩).1) := by
  obtain ⟨_, h2, h3⟩ := expand_fits hB hS (e := ⟨0, 0⟩) rfl hN
  refine ⟨h3.1.1, fun p hp => ?_⟩
  have := (h3.1.2 p hp).2
  have := Nat.le_max_left (n + (expand 0 x ⟨0, 0⟩).2.total) (maxPos (expand 0 x ⟨0, 0⟩).1)
  omega

end Verif.Re
