import Verif.Parser.Lemmas
/- The parser as a stream of bytes with a mark (C31). -/
namespace Verif.Parser
open Verif.Buf (W wr rd realloc wr_mid rd_mid split_at)

/-! ### Specification -/

/-- The stream: the bytes consumed so far, the bytes that remain, and the marked position. -/
structure A where
  before : List UInt8
  rest : List UInt8
  mark : Option Nat
deriving DecidableEq, Repr

/-- The operations of the interface.  `scan f k` stands for the readers that take as many bytes as a scan of the remaining
bytes says into a buffer of `k` bytes. -/
inductive Op
  | append (bs : List UInt8)
  | direct (req : Nat) (bs : List UInt8)
  | consume (n : Nat)
  | truncate (n : Nat)
  | mark
  | clear
  | rewind
  | reset
  | read (n : Nat)
  | readMark (k : Nat)
  | scan (f : List UInt8 → Nat) (k : Nat)

/-- What an operation returns: its return value (0 and 1 for booleans) and the bytes stored. -/
abbrev Out := Nat × List UInt8

/-- The code of an operation. -/
def step (g : Nat → UInt8) (p : P) : Op → Option (P × Out)
  | .append bs => (append g p bs).map fun r => (r.1, r.2.toNat, [])
  | .direct req bs => (directWrite g p req bs).map fun r => (r, 0, [])
  | .consume n => (consume p n).map fun r => (r.1, r.2.toNat, [])
  | .truncate n => (truncate p n).map fun r => (r.1, r.2.toNat, [])
  | .mark => some (Parser.mark p, 0, [])
  | .clear => (markClear p true false).map fun r => (r, 0, [])
  | .rewind => (markRewind p).map fun r => (r.1, r.2, [])
  | .reset => (Parser.reset p).map fun r => (r.1, r.2, [])
  | .read n => (readBytes p n).map fun r => (r.1, r.2.2.toNat, r.2.1)
  | .readMark k => (Parser.readMark p true false k).map fun r => (r.1, r.2.length, r.2)
  | .scan f k => (readVia f p k).map fun r => (r.1, r.2.length, r.2)

/-- The meaning of an operation on the stream; `c` for a parser of constant data. -/
def spec (c : Bool) (a : A) : Op → A × Out
  | .append bs => if c then (a, 0, []) else ({ a with rest := a.rest ++ bs }, 1, [])
  | .direct _ bs => if c then (a, 0, []) else ({ a with rest := a.rest ++ bs }, 0, [])
  | .consume n => if n ≤ a.rest.length then ({ a with before := a.before ++ a.rest.take n, rest := a.rest.drop n }, 1, []) else (a, 0, [])
  | .truncate n => if n ≤ a.rest.length then ({ a with rest := a.rest.take n }, 1, []) else (a, 0, [])
  | .mark => ({ a with mark := some a.before.length }, 0, [])
  | .clear => ({ a with mark := none }, 0, [])
  | .rewind =>
    match a.mark with
    | some m => ({ a with before := a.before.take m, rest := a.before.drop m ++ a.rest }, a.before.length - m, [])
    | none => (a, 0, [])
  | .reset =>
    if c ∧ a.before ≠ [] then ({ before := [], rest := a.before ++ a.rest, mark := if a.mark = some 0 then some 0 else none }, a.before.length, []) else (a, 0, [])
  | .read n =>
    if 0 < n ∧ n ≤ a.rest.length then ({ a with before := a.before ++ a.rest.take n, rest := a.rest.drop n }, 1, a.rest.take n) else (a, 0, [])
  | .readMark k =>
    match a.mark with
    | some m => if a.before.length - m ≤ k ∧ m < a.before.length then ({ a with mark := none }, a.before.length - m, a.before.drop m) else (a, 0, [])
    | none => (a, 0, [])
  | .scan f _ => ({ a with before := a.before ++ a.rest.take (f a.rest), rest := a.rest.drop (f a.rest) }, f a.rest, a.rest.take (f a.rest))

/-- Rules of the interface, and the two restrictions of the theorem: nothing is added to a dynamic parser while all bytes
are consumed and the mark stands at the end of the stream (`stale_mark`), and the buffer of a scanning reader is large
enough (`short_buffer`). -/
def Legal (c : Bool) (a : A) : Op → Prop
  | .append bs => c = false → bs ≠ [] → ¬ (a.rest = [] ∧ a.mark = some a.before.length ∧ a.before ≠ [])
  | .direct req bs => 0 < req ∧ bs.length ≤ req ∧ (c = false → ¬ (a.rest = [] ∧ a.mark = some a.before.length ∧ a.before ≠ []))
  | .scan f k => 0 < k ∧ f a.rest ≤ k ∧ f a.rest ≤ a.rest.length
  | _ => True

/-- Bytes that an operation adds. -/
def cost : Op → Nat
  | .append bs => bs.length
  | .direct req _ => req
  | _ => 0

/-- A history: the final state and everything that was returned. -/
def run (g : Nat → UInt8) (p : P) : List Op → Option (P × List Out)
  | [] => some (p, [])
  | o :: os => (step g p o).bind fun r => (run g r.1 os).map fun s => (s.1, r.2 :: s.2)

/-- The same history on the stream. -/
def specRun (c : Bool) (a : A) : List Op → A × List Out
  | [] => (a, [])
  | o :: os => ((specRun c (spec c a o).1 os).1, (spec c a o).2 :: (specRun c (spec c a o).1 os).2)

/-- Every operation of the history follows the rules. -/
def LegalRun (c : Bool) (a : A) : List Op → Prop
  | [] => True
  | o :: os => Legal c a o ∧ LegalRun c (spec c a o).1 os

/-- Operations that go back. -/
def Op.back : Op → Bool
  | .rewind => true
  | .reset => true
  | _ => false

/-- What can be observed of the parser: length, bytes, offset, the marked bytes, and the line and (if `x`) the column. -/
def Shows (p : P) (a : A) (x : Bool) : Prop :=
  plen p = a.rest.length ∧ (peek p).take (plen p) = a.rest ∧
  (∀ n, peekBytes p n = some (if 0 < n ∧ n ≤ a.rest.length then (a.rest.take n, true) else ([], false))) ∧ offset p = a.before.length ∧
  markLen p = (a.mark.map (a.before.length - ·)).getD 0 ∧ peekMark p = some ((a.mark.map (a.before.drop ·)).getD []) ∧
  curLine p = (if p.track then lines a.before + 1 else 0) ∧ (x = true → curCol p = if p.track then column a.before + 1 else 0)

/-! ### Proofs -/

/-- The parser holds the stream; `x` if the column is exact. -/
def R (p : P) (a : A) (x : Bool) : Prop := ∃ pre kept old post : List UInt8,
  p.mem = pre ++ (kept ++ (a.rest ++ post)) ∧ a.before = old ++ kept ∧ p.pos = pre.length + kept.length ∧ p.len = a.rest.length ∧
  p.consumed = a.before.length ∧ p.markI = none ∧ ((p.markU = none ∧ a.mark = none) ∨ (p.markU = some pre.length ∧ a.mark = some old.length)) ∧
  (p.const = true → pre = old) ∧ pre.length ≤ old.length ∧ p.mem.length < W ∧
  (p.track = true → p.line = lines a.before ∧ (x = true → p.col = column a.before))

theorem R.mono {p : P} {a : A} {x : Bool} (h : R p a x) : R p a false := by
  obtain ⟨pre, kept, old, post, h1, h2, h3, h4, h5, h6, h7, h8, h9, h10, h11⟩ := h
  exact ⟨pre, kept, old, post, h1, h2, h3, h4, h5, h6, h7, h8, h9, h10, fun ht => ⟨(h11 ht).1, by simp⟩⟩

/-- The marked region seen by `M_parser_marked_buffer_start` for the user mark. -/
theorem R.marked {p : P} {a : A} {x : Bool} (h : R p a x) : ∃ pre kept old post : List UInt8,
    p.mem = pre ++ (kept ++ (a.rest ++ post)) ∧ a.before = old ++ kept ∧ p.pos = pre.length + kept.length ∧
    markedStart p true false = (pre.length, kept.length) ∧ markedStart p true true = (pre.length, kept.length) ∧
    ((p.markU = none ∧ a.mark = none ∧ kept = []) ∨ (p.markU = some pre.length ∧ a.mark = some old.length)) ∧
    (p.const = true → pre = old) ∧ pre.length ≤ old.length := by
  obtain ⟨pre, kept, old, post, h1, h2, h3, h4, h5, h6, h7, h8, h9, h10, h11⟩ := h
  have hk : kept.length < W := by
    rw [h1] at h10; simp only [List.length_append] at h10; omega
  rcases h7 with ⟨h7, h7'⟩ | ⟨h7, h7'⟩
  · refine ⟨pre ++ kept, [], old ++ kept, post, by rw [h1]; simp, by rw [h2]; simp, by simp [h3], ?_, ?_, Or.inl ⟨h7, h7', rfl⟩, fun hc => by rw [h8 hc], by simp [h9]⟩
    · simp only [markedStart, minMark, h7, h3, if_true, Bool.false_eq_true, if_false, List.length_append, List.length_nil]
    · simp only [markedStart, minMark, h7, h6, h3, if_true, List.length_append, List.length_nil]
  · refine ⟨pre, kept, old, post, h1, h2, h3, ?_, ?_, Or.inr ⟨h7, h7'⟩, h8, h9⟩
    · simp only [markedStart, minMark, h7, if_true, Bool.false_eq_true, if_false]
      rw [marked_len h3 hk]
    · simp only [markedStart, minMark, h7, h6, if_true]
      rw [marked_len h3 hk]

theorem R.shows {p : P} {a : A} {x : Bool} (h : R p a x) : Shows p a x := by
  obtain ⟨pre, kept, old, post, m1, m2, m3, m4, m5, m6, m7, m8⟩ := h.marked
  obtain ⟨_, _, _, _, h1, h2, h3, h4, h5, h6, h7, h8, h9, h10, h11⟩ := h
  refine ⟨h4, ?_, ?_, h5, ?_, ?_, ?_, ?_⟩
  · unfold peek plen
    rw [h1, h3, h4]
    rw [← List.append_assoc, ← List.length_append, List.drop_left, List.take_left]
  · intro n
    unfold peekBytes
    by_cases hb : p.len < n ∨ n = 0
    · rw [if_pos hb, if_neg (by omega)]
    · rw [if_neg hb, if_pos (by omega)]
      have hl : (a.rest.take n).length = n := by rw [List.length_take]; omega
      have e : p.mem = (pre ++ kept) ++ (a.rest.take n ++ (a.rest.drop n ++ post)) := by
        rw [m1, ← List.append_assoc (a.rest.take n), List.take_append_drop]; simp only [List.append_assoc]
      rw [e, rd_mid _ _ _ _ _ (by rw [List.length_append]; exact m3) hl.symm]
      rfl
  · unfold markLen
    rw [m4]
    rcases m6 with ⟨_, e, hk⟩ | ⟨_, e⟩
    · rw [e, hk]; rfl
    · rw [e, m2]; simp
  · unfold peekMark
    rw [m4, m1, rd_mid pre kept _ _ _ rfl rfl]
    rcases m6 with ⟨_, e, hk⟩ | ⟨_, e⟩
    · rw [e, hk]; rfl
    · rw [e, m2]; simp
  · unfold curLine
    cases ht : p.track
    · rfl
    · rw [if_pos rfl, if_pos rfl, (h11 ht).1]
  · intro hx
    unfold curCol
    cases ht : p.track
    · rfl
    · rw [if_pos rfl, if_pos rfl, (h11 ht).2 hx]

theorem create_R (t : Bool) : R (create t) { before := [], rest := [], mark := none } true :=
  ⟨[], [], [], [], rfl, rfl, rfl, rfl, rfl, rfl, Or.inl ⟨rfl, rfl⟩, fun _ => rfl, Nat.le_refl _, by simp [create, W], fun _ => ⟨rfl, fun _ => rfl⟩⟩

theorem createConst_R (bs : List UInt8) (t : Bool) (hb : bs.length < W) : R (createConst bs t) { before := [], rest := bs, mark := none } true :=
  ⟨[], [], [], [], by simp [createConst], rfl, rfl, rfl, rfl, rfl, Or.inl ⟨rfl, rfl⟩, fun _ => rfl, Nat.le_refl _, hb, fun _ => ⟨rfl, fun _ => rfl⟩⟩

theorem mark_R {p : P} {a : A} {x : Bool} (h : R p a x) : R (Parser.mark p) { a with mark := some a.before.length } x := by
  obtain ⟨pre, kept, old, post, h1, h2, h3, h4, h5, h6, h7, h8, h9, h10, h11⟩ := h
  refine ⟨pre ++ kept, [], a.before, post, by rw [← List.append_assoc] at h1; exact h1, by simp, by simp [Parser.mark, h3], h4, h5, h6, Or.inr ⟨by simp [Parser.mark, h3], rfl⟩, ?_, ?_, h10, h11⟩
  · intro hc; rw [h8 hc, ← h2]
  · rw [h2]; simp only [List.length_append]; omega

theorem consume_R {p : P} {a : A} {x : Bool} (h : R p a x) (n : Nat) (hn : n ≤ a.rest.length) :
    ∃ p', consume p n = some (p', true) ∧ R p' { a with before := a.before ++ a.rest.take n, rest := a.rest.drop n } x ∧ p'.const = p.const ∧ p'.track = p.track := by
  obtain ⟨pre, kept, old, post, h1, h2, h3, h4, h5, h6, h7, h8, h9, h10, h11⟩ := h
  have hl : (a.rest.take n).length = n := by rw [List.length_take]; omega
  have e : p.mem = (pre ++ kept) ++ (a.rest.take n ++ (a.rest.drop n ++ post)) := by
    rw [h1, ← List.append_assoc (a.rest.take n), List.take_append_drop]; simp only [List.append_assoc]
  have hc := consume_eq e (by rw [List.length_append]; exact h3) (by omega)
  rw [hl] at hc
  refine ⟨_, hc, ?_, rfl, rfl⟩
  have hadv := advance_spec (a.rest.take n) a.before p.line p.col
  have htrack : p.track = true → (if p.track then (advance (p.line, p.col) (a.rest.take n)).1 else p.line) = lines (a.before ++ a.rest.take n) ∧
      (x = true → (if p.track then (advance (p.line, p.col) (a.rest.take n)).2 else p.col) = column (a.before ++ a.rest.take n)) := by
    intro ht
    rw [if_pos ht, if_pos ht]
    exact ⟨hadv.2.1 (h11 ht).1, fun hx => hadv.2.2 ((h11 ht).2 hx)⟩
  have hlen : (pre ++ (kept ++ (a.rest ++ post))).length = (pre ++ kept ++ (a.rest.take n ++ (a.rest.drop n ++ post))).length := by rw [← h1, e]
  cases hw : wipes p
  · refine ⟨pre, kept ++ a.rest.take n, old, post, ?_, ?_, ?_, ?_, ?_, h6, h7, h8, h9, h10, htrack⟩
    · simp only [Bool.false_eq_true, if_false]
      rw [e]; simp only [List.append_assoc]
    · show a.before ++ a.rest.take n = _
      rw [h2, List.append_assoc]
    · show p.pos + n = _
      rw [h3, List.length_append, hl]; omega
    · show p.len - n = _
      rw [List.length_drop, h4]
    · show p.consumed + n = _
      rw [List.length_append, hl, h5]
  · have hw' : p.const = false ∧ p.mem ≠ [] ∧ p.markU = none ∧ p.markI = none := of_decide_eq_true hw
    have hmark : a.mark = none := by
      rcases h7 with ⟨_, h⟩ | ⟨h, _⟩
      · exact h
      · rw [hw'.2.2.1] at h; simp at h
    refine ⟨pre ++ kept ++ List.replicate n 0xFF, [], a.before ++ a.rest.take n, post, ?_, ?_, ?_, ?_, ?_, h6, Or.inl ⟨hw'.2.2.1, hmark⟩, ?_, ?_, ?_, htrack⟩
    · simp only [if_true, List.append_assoc, List.nil_append]
    · simp
    · show p.pos + n = _
      rw [h3]; simp only [List.length_append, List.length_replicate, List.length_nil]; omega
    · show p.len - n = _
      rw [List.length_drop, h4]
    · show p.consumed + n = _
      rw [List.length_append, hl, h5]
    · intro hc; exact absurd hc (by rw [hw'.1]; simp)
    · rw [h2]; simp only [List.length_append, List.length_replicate, hl]; omega
    · simp only [if_true]
      rw [h1, hlen] at h10
      simp only [List.length_append, List.length_replicate, hl] at h10 ⊢
      omega

theorem clear_R {p : P} {a : A} {x : Bool} (h : R p a x) : ∃ p', markClear p true false = some p' ∧ R p' { a with mark := none } x ∧ p'.const = p.const ∧ p'.track = p.track := by
  obtain ⟨pre, kept, old, post, m1, m2, m3, m4, m5, m6, m7, m8⟩ := h.marked
  obtain ⟨_, _, _, _, h1, h2, h3, h4, h5, h6, h7, h8, h9, h10, h11⟩ := h
  unfold markClear
  rw [m5]
  simp only [if_true, Bool.false_eq_true, if_false]
  by_cases hd : p.const = true ∨ p.mem = []
  · rw [if_pos hd, if_neg (by simp)]
    refine ⟨_, rfl, ⟨pre ++ kept, [], a.before, post, by rw [m1]; simp, by simp, by simp [m3], h4, h5, h6, Or.inl ⟨rfl, rfl⟩, ?_, ?_, h10, h11⟩, rfl, rfl⟩
    · intro hc; rw [m7 hc, ← m2]
    · rw [m2]; simp only [List.length_append]; omega
  · rw [if_neg hd]
    by_cases hk : kept.length = 0
    · rw [if_neg (by simp [hk])]
      refine ⟨_, rfl, ⟨pre ++ kept, [], a.before, post, by rw [m1]; simp, by simp, by simp [m3], h4, h5, h6, Or.inl ⟨rfl, rfl⟩, ?_, ?_, h10, h11⟩, rfl, rfl⟩
      · intro hc; rw [m7 hc, ← m2]
      · rw [m2]; simp only [List.length_append]; omega
    · rw [if_pos ⟨hk, h6, trivial⟩, m1, wr_mid pre kept _ (List.replicate kept.length 0xFF) _ rfl (by simp), Option.map_some]
      refine ⟨_, rfl, ⟨pre ++ List.replicate kept.length 0xFF, [], a.before, post, by simp, by simp, by simp [m3], h4, h5, h6, Or.inl ⟨rfl, rfl⟩, ?_, ?_, ?_, h11⟩, rfl, rfl⟩
      · intro hc; exact absurd (Or.inl hc) hd
      · rw [m2]; simp only [List.length_append, List.length_replicate]; omega
      · rw [m1] at h10
        simp only [List.length_append, List.length_replicate] at h10 ⊢
        exact h10

theorem truncate_R {p : P} {a : A} {x : Bool} (h : R p a x) (n : Nat) (hn : n ≤ a.rest.length) :
    ∃ p', truncate p n = some (p', true) ∧ R p' { a with rest := a.rest.take n } x ∧ p'.const = p.const ∧ p'.track = p.track := by
  obtain ⟨pre, kept, old, post, h1, h2, h3, h4, h5, h6, h7, h8, h9, h10, h11⟩ := h
  have hl : (a.rest.take n).length = n := by rw [List.length_take]; omega
  have e : p.mem = (pre ++ kept ++ a.rest.take n) ++ (a.rest.drop n ++ post) := by
    rw [h1]; conv => lhs; rw [← List.take_append_drop n a.rest]
    simp only [List.append_assoc]
  unfold truncate
  rw [if_neg (by omega)]
  by_cases hd : p.const = false ∧ p.mem ≠ []
  · rw [if_pos hd, e, wr_mid _ (a.rest.drop n) post (List.replicate (p.len - n) 0xFF) _ (by simp only [List.length_append, hl]; omega) (by rw [List.length_drop, List.length_replicate]; omega), Option.map_some]
    refine ⟨_, rfl, ⟨pre, kept, old, List.replicate (p.len - n) 0xFF ++ post, by simp only [List.append_assoc], h2, h3, ?_, h5, h6, h7, h8, h9, ?_, h11⟩, rfl, rfl⟩
    · exact hl.symm
    · rw [e] at h10
      simp only [List.length_append, List.length_replicate, List.length_drop] at h10 ⊢
      omega
  · rw [if_neg hd]
    exact ⟨_, rfl, ⟨pre, kept, old, a.rest.drop n ++ post, by rw [e]; simp only [List.append_assoc], h2, h3, hl.symm, h5, h6, h7, h8, h9, h10, h11⟩, rfl, rfl⟩

theorem lines_sub (a b : List UInt8) : lines (a ++ b) - (b.filter (· = 10)).length = lines a := by
  rw [lines_append]; unfold lines; omega

/-- Going back by `n` bytes that are still in the buffer. -/
theorem rewindInt_R {p : P} {a : A} {pre k1 k2 old post : List UInt8} (hn : k2 ≠ []) (h1 : p.mem = pre ++ (k1 ++ (k2 ++ (a.rest ++ post)))) (h2 : a.before = old ++ (k1 ++ k2))
    (h3 : p.pos = pre.length + (k1.length + k2.length)) (h4 : p.len = a.rest.length) (h5 : p.consumed = a.before.length)
    (h8 : p.const = true → pre = old) (h11 : p.track = true → p.line = lines a.before) :
    ∃ p', rewindInt p k2.length = some (p', true) ∧ p'.mem = p.mem ∧ p'.pos = pre.length + k1.length ∧ p'.len = p.len + k2.length ∧ p'.consumed = (old ++ k1).length ∧
      p'.markI = keepMark p.markI (pre.length + k1.length) ∧ p'.markU = keepMark p.markU (pre.length + k1.length) ∧ p'.const = p.const ∧ p'.track = p.track ∧
      (p.track = true → p'.line = lines (old ++ k1) ∧ (p.const = true → p'.col = column (old ++ k1))) := by
  have hk : k2.length ≠ 0 := by intro h; exact hn (List.length_eq_zero_iff.mp h)
  unfold rewindInt
  rw [if_neg hk, if_neg (by omega)]
  have e : p.mem = (pre ++ k1) ++ (k2 ++ (a.rest ++ post)) := by rw [h1]; simp only [List.append_assoc]
  have hpos : p.pos - k2.length = pre.length + k1.length := by omega
  have hcons : p.consumed - k2.length = (old ++ k1).length := by rw [h5, h2]; simp only [List.length_append]; omega
  simp only [hpos, hcons]
  cases ht : p.track
  · simp only [Bool.false_eq_true, if_false]
    exact ⟨_, rfl, rfl, rfl, rfl, rfl, rfl, rfl, rfl, rfl, fun h => by simp at h⟩
  · simp only [if_true]
    have er : rd p.mem (pre.length + k1.length) k2.length = some k2 := by rw [e]; exact rd_mid _ _ _ _ _ (by rw [List.length_append]) rfl
    rw [er, Option.bind_some, if_neg (by rw [e]; simp only [List.length_append]; omega)]
    refine ⟨_, rfl, rfl, rfl, rfl, rfl, rfl, rfl, rfl, rfl, fun _ => ⟨?_, ?_⟩⟩
    · show p.line - _ = _
      rw [h11 ht, h2, ← List.append_assoc]
      exact lines_sub _ _
    · intro hc
      show scanBack _ = _
      rw [e, ← List.length_append, List.take_left, scanBack_eq, h8 hc]
      rfl

theorem spec_rewind_none (c : Bool) (a : A) (h : a.mark = none ∨ a.mark = some a.before.length) : spec c a .rewind = (a, 0, []) := by
  obtain ⟨b, r, m⟩ := a
  rcases h with e | e <;> (simp only at e; subst e; simp [spec])

theorem spec_rewind_some (c : Bool) (a : A) {old kept : List UInt8} (h : a.mark = some old.length) (e : a.before = old ++ kept) :
    spec c a .rewind = ({ a with before := old, rest := kept ++ a.rest }, kept.length, []) := by
  obtain ⟨b, r, m⟩ := a
  simp only at h e
  subst h e
  simp [spec]

theorem rewind_R {p : P} {a : A} {x : Bool} (h : R p a x) :
    ∃ p', (markRewind p).map (fun r => (r.1, r.2, ([] : List UInt8))) = some (p', (spec p.const a .rewind).2) ∧ R p' (spec p.const a .rewind).1 (x && p.const) ∧ p'.const = p.const ∧ p'.track = p.track := by
  obtain ⟨pre, kept, old, post, m1, m2, m3, m4, m5, m6, m7, m8⟩ := h.marked
  have h' := h
  obtain ⟨_, _, _, _, h1, h2, h3, h4, h5, h6, h7, h8, h9, h10, h11⟩ := h
  unfold markRewind markLen
  rw [m4]
  by_cases hk : kept = []
  · subst hk
    rw [if_neg (by simp)]
    have hs : spec p.const a .rewind = (a, 0, []) := by
      have hmk : a.mark = none ∨ a.mark = some a.before.length := by
        rcases m6 with ⟨_, e, _⟩ | ⟨_, e⟩
        · exact Or.inl e
        · right; rw [e, m2]; simp
      exact spec_rewind_none p.const a hmk
    rw [hs]
    refine ⟨p, rfl, ?_, rfl, rfl⟩
    obtain ⟨_, _, _, _, h1, h2, h3, h4, h5, h6, h7, h8, h9, h10, h11⟩ := h'
    exact ⟨_, _, _, _, h1, h2, h3, h4, h5, h6, h7, h8, h9, h10, fun ht => ⟨(h11 ht).1, fun hx => (h11 ht).2 (by simp at hx; exact hx.1)⟩⟩
  · have hl : kept.length ≠ 0 := fun h => hk (List.length_eq_zero_iff.mp h)
    rw [if_pos hl]
    rcases m6 with ⟨_, _, hk0⟩ | ⟨e1, e2⟩
    · exact absurd hk0 hk
    obtain ⟨p', r1, r2, r3, r4, r5, r6, r7, r8, r9, r10⟩ := rewindInt_R (post := post) (k1 := []) hk (by rw [m1]; simp) (by rw [m2]; simp) (by rw [m3]; simp) h4 h5 m7 (fun ht => (h11 ht).1)
    rw [r1]
    have hs : spec p.const a .rewind = ({ a with before := old, rest := kept ++ a.rest }, kept.length, []) := spec_rewind_some p.const a e2 m2
    rw [hs]
    refine ⟨p', rfl, ?_, r8, r9⟩
    simp only [List.append_nil, List.length_nil, Nat.add_zero] at r3 r5 r6 r7 r10
    refine ⟨pre, [], old, post, ?_, by simp, by simp [r3], ?_, r5, ?_, Or.inr ⟨?_, e2⟩, ?_, m8, by rw [r2]; exact h10, ?_⟩
    · rw [r2, m1]; simp
    · rw [r4, h4]; simp only [List.length_append]; omega
    · rw [r6, h6]; rfl
    · rw [r7, e1]
      show (if pre.length > pre.length then none else some pre.length) = _
      rw [if_neg (by omega)]
    · intro hc; rw [r8] at hc; exact m7 hc
    · intro ht
      rw [r9] at ht
      refine ⟨(r10 ht).1, fun hx => (r10 ht).2 ?_⟩
      simp at hx; exact hx.2

theorem reset_R {p : P} {a : A} {x : Bool} (h : R p a x) :
    ∃ p', (Parser.reset p).map (fun r => (r.1, r.2, ([] : List UInt8))) = some (p', (spec p.const a .reset).2) ∧ R p' (spec p.const a .reset).1 (x && p.const) ∧ p'.const = p.const ∧ p'.track = p.track := by
  have weak : R p a (x && p.const) := by
    obtain ⟨_, _, _, _, h1, h2, h3, h4, h5, h6, h7, h8, h9, h10, h11⟩ := h
    exact ⟨_, _, _, _, h1, h2, h3, h4, h5, h6, h7, h8, h9, h10, fun ht => ⟨(h11 ht).1, fun hx => (h11 ht).2 (by simp at hx; exact hx.1)⟩⟩
  obtain ⟨pre, kept, old, post, h1, h2, h3, h4, h5, h6, h7, h8, h9, h10, h11⟩ := h
  unfold Parser.reset
  by_cases hd : p.const = false ∧ p.mem ≠ []
  · rw [if_pos hd]
    have hs : spec p.const a .reset = (a, 0, []) := by simp [spec, hd.1]
    rw [hs]
    exact ⟨p, rfl, weak, rfl, rfl⟩
  · rw [if_neg hd]
    by_cases hz : a.before = []
    · have : p.consumed = 0 := by rw [h5, hz]; rfl
      rw [this]
      have hr : rewindInt p 0 = some (p, false) := rfl
      rw [hr]
      have hs : spec p.const a .reset = (a, 0, []) := by simp [spec, hz]
      rw [hs]
      exact ⟨p, rfl, weak, rfl, rfl⟩
    · -- constant data
      cases hc : p.const
      · -- a dynamic parser without memory has consumed nothing it could go back to
        have hm : p.mem = [] := by
          apply Classical.byContradiction
          intro hne; exact hd ⟨hc, hne⟩
        have hp0 : p.pos = 0 := by
          rw [hm] at h1
          have := congrArg List.length h1
          simp only [List.length_nil, List.length_append] at this
          omega
        have hcpos : p.consumed ≠ 0 := by rw [h5]; intro h0; exact hz (List.length_eq_zero_iff.mp h0)
        have hr : rewindInt p p.consumed = some (p, false) := by
          unfold rewindInt
          rw [if_neg hcpos, if_pos (by omega)]
        rw [hr]
        have hs : spec false a .reset = (a, 0, []) := by simp [spec]
        rw [hs]
        exact ⟨p, rfl, by rw [← hc]; exact weak, by simpa using hc, rfl⟩
      · have hpre := h8 hc
        have hmem : p.mem = [] ++ ([] ++ (a.before ++ (a.rest ++ post))) := by rw [h1, hpre, h2]; simp only [List.append_assoc, List.nil_append]
        obtain ⟨p', r1, r2, r3, r4, r5, r6, r7, r8, r9, r10⟩ := rewindInt_R (post := post) (pre := []) (k1 := []) (old := []) (a := a) hz hmem (by simp)
          (by rw [h3, hpre, h2]; simp only [List.length_append, List.length_nil]; omega) h4 h5 (fun _ => rfl) (fun ht => (h11 ht).1)
        rw [h5, r1]
        have hs : spec true a .reset = ({ before := [], rest := a.before ++ a.rest, mark := if a.mark = some 0 then some 0 else none }, a.before.length, []) := by simp [spec, hz]
        rw [hs]
        refine ⟨p', by simp, ?_, by rw [r8]; exact hc, r9⟩
        simp only [List.append_nil, List.length_nil, Nat.add_zero] at r3 r5 r6 r7 r10
        refine ⟨[], [], [], post, ?_, rfl, by simp [r3], ?_, by simp [r5], ?_, ?_, fun _ => rfl, Nat.le_refl _, by rw [r2]; exact h10, ?_⟩
        · rw [r2, hmem]; simp
        · rw [r4, h4]; simp only [List.length_append]; omega
        · rw [r6, h6]; rfl
        · rcases h7 with ⟨u, am⟩ | ⟨u, am⟩
          · left; rw [r7, u, am]; exact ⟨rfl, by simp⟩
          · rw [r7, u, am, hpre]
            unfold keepMark
            by_cases ho : old.length = 0
            · right; rw [ho]; simp
            · left
              have : old.length > 0 := by omega
              simp [this, ho]
        · intro ht
          rw [r9] at ht
          exact ⟨(r10 ht).1, fun _ => (r10 ht).2 hc⟩

theorem roundUp_ge (n : Nat) (h0 : n ≠ 0) (hn : n ≤ 9223372036854775808) : n ≤ Bithacks.roundUp64 n ∧ Bithacks.roundUp64 n < W := by
  obtain ⟨k, h1, h2, h3⟩ := Bithacks.roundUp64_correct n h0 (by simpa using hn)
  rw [h1]
  exact ⟨h2, by unfold W; omega⟩

theorem grow_R (g : Nat → UInt8) {p q : P} {keep ml n room : Nat} (h : compact p = some (q, keep, ml)) (hp : q.pos = ml) (h0 : 0 < n) (hl : q.mem.length = keep + room) (hw : q.mem.length < W)
    (hn : keep + n ≤ 9223372036854775808) : ∃ ext, ensureSpace g p n = some { q with mem := q.mem ++ ext } ∧ n ≤ room + ext.length ∧ (q.mem ++ ext).length < W := by
  unfold ensureSpace
  rw [h, Option.map_some]
  dsimp only
  rw [if_neg (show ¬ n = 0 by omega)]
  have hsub : (q.mem.length + W - keep) % W = room := by
    have : q.mem.length + W - keep = room + W := by omega
    rw [this, Nat.add_mod_right]; apply Nat.mod_eq_of_lt; omega
  have hmod : (keep + n) % W = keep + n := by apply Nat.mod_eq_of_lt; unfold W; omega
  rw [hsub, hmod]
  by_cases hg : q.mem = [] ∨ n > room
  · rw [if_pos hg]
    obtain ⟨r1, r2⟩ := roundUp_ge (keep + n) (by omega) hn
    generalize Bithacks.roundUp64 (keep + n) = s at r1 r2 ⊢
    have hge : q.mem.length ≤ s := by
      rcases hg with hg | hg
      · rw [hg]; simp
      · omega
    have hre : (realloc g q.mem s).take s = q.mem ++ (List.range (s - q.mem.length)).map g := by
      have : (realloc g q.mem s).length ≤ s := by
        unfold realloc
        simp only [List.length_append, List.length_map, List.length_range]; omega
      rw [List.take_of_length_le this]; rfl
    rw [hre]
    refine ⟨(List.range (s - q.mem.length)).map g, by rw [← hp], ?_, ?_⟩
    · simp only [List.length_map, List.length_range]; omega
    · simp only [List.length_append, List.length_map, List.length_range]; omega
  · rw [if_neg hg]
    exact ⟨[], by simp, by simp; omega, by simpa using hw⟩

theorem ensure_R (g : Nat → UInt8) {p : P} {a : A} {x : Bool} (h : R p a x) (hc : p.const = false) (n : Nat) (h0 : 0 < n)
    (hs : ¬ (a.rest = [] ∧ a.mark = some a.before.length ∧ a.before ≠ [])) (hn : a.before.length + a.rest.length + n ≤ 9223372036854775808) :
    ∃ p' pre kept old post, ensureSpace g p n = some p' ∧ p'.mem = pre ++ (kept ++ (a.rest ++ post)) ∧ n ≤ post.length ∧ a.before = old ++ kept ∧ p'.pos = pre.length + kept.length ∧
      p'.len = p.len ∧ p'.consumed = p.consumed ∧ p'.markI = none ∧ ((p'.markU = none ∧ a.mark = none) ∨ (p'.markU = some pre.length ∧ a.mark = some old.length)) ∧
      pre.length ≤ old.length ∧ p'.mem.length < W ∧ p'.const = p.const ∧ p'.track = p.track ∧ p'.line = p.line ∧ p'.col = p.col := by
  obtain ⟨pre, kept, old, post, m1, m2, m3, m4, m5, m6, m7, m8⟩ := h.marked
  obtain ⟨_, _, _, _, h1, h2, h3, h4, h5, h6, h7, h8, h9, h10, h11⟩ := h
  have hkeep : (p.len + kept.length) % W = a.rest.length + kept.length := by
    rw [h4]; apply Nat.mod_eq_of_lt
    rw [m2] at hn; simp only [List.length_append] at hn
    unfold W; omega
  have hkb : kept.length ≤ a.before.length := by rw [m2]; simp
  -- the compacted state
  have hcomp : ∃ q post', compact p = some (q, a.rest.length + kept.length, kept.length) ∧ q.mem = kept ++ (a.rest ++ post') ∧ q.pos = kept.length ∧ q.len = p.len ∧ q.consumed = p.consumed ∧
      q.markI = none ∧ ((q.markU = none ∧ a.mark = none) ∨ (q.markU = some 0 ∧ a.mark = some old.length)) ∧ q.mem.length = p.mem.length ∧ q.const = p.const ∧ q.track = p.track ∧ q.line = p.line ∧ q.col = p.col := by
    unfold compact
    by_cases hm : p.mem = []
    · rw [if_pos hm]
      rw [hm] at m1
      have hlen := congrArg List.length m1
      simp only [List.length_nil, List.length_append] at hlen
      have e1 : pre = [] := List.length_eq_zero_iff.mp (by omega)
      have e2 : kept = [] := List.length_eq_zero_iff.mp (by omega)
      have e3 : a.rest = [] := List.length_eq_zero_iff.mp (by omega)
      subst e1 e2
      rw [e3]
      refine ⟨p, [], rfl, by simpa using hm, by simpa using m3, rfl, rfl, h6, ?_, rfl, rfl, rfl, rfl, rfl⟩
      rcases m6 with ⟨u, e, _⟩ | ⟨u, e⟩
      · exact Or.inl ⟨u, e⟩
      · exact Or.inr ⟨by simpa using u, e⟩
    · rw [if_neg hm, m5]
      simp only [hkeep]
      by_cases hmv : pre.length ≠ 0 ∧ a.rest.length + kept.length ≠ 0
      · rw [if_pos hmv]
        have e1 : p.mem = pre ++ ((kept ++ a.rest) ++ post) := by rw [m1]; simp only [List.append_assoc]
        have er : rd p.mem pre.length (a.rest.length + kept.length) = some (kept ++ a.rest) := by
          rw [e1]; exact rd_mid _ _ _ _ _ rfl (by rw [List.length_append]; omega)
        rw [er, Option.bind_some]
        obtain ⟨s1, s2, es, hsl⟩ := split_at p.mem (kept ++ a.rest).length (by rw [e1]; simp only [List.length_append]; omega)
        have ew : wr p.mem 0 (kept ++ a.rest) = some ((kept ++ a.rest) ++ s2) := by
          have := wr_mid [] s1 s2 (kept ++ a.rest) 0 rfl hsl
          rw [List.nil_append, ← es] at this
          exact this
        rw [ew, Option.map_some]
        refine ⟨_, s2, rfl, by simp only [List.append_assoc], rfl, rfl, rfl, by simp [h6], ?_, ?_, rfl, rfl, rfl, rfl⟩
        · rcases m6 with ⟨u, e, _⟩ | ⟨u, e⟩
          · exact Or.inl ⟨by simp [u], e⟩
          · exact Or.inr ⟨by simp [u], e⟩
        · have := congrArg List.length es
          simp only [List.length_append] at this hsl ⊢
          omega
      · rw [if_neg hmv]
        have hpre : pre = [] ∨ (pre ≠ [] ∧ a.rest = [] ∧ kept = []) := by
          by_cases hp : pre = []
          · exact Or.inl hp
          · right
            have : pre.length ≠ 0 := fun h => hp (List.length_eq_zero_iff.mp h)
            have h2 : ¬ (a.rest.length + kept.length ≠ 0) := fun h => hmv ⟨this, h⟩
            exact ⟨hp, List.length_eq_zero_iff.mp (by omega), List.length_eq_zero_iff.mp (by omega)⟩
        rcases hpre with hp | ⟨hp, hr, hk⟩
        · subst hp
          refine ⟨_, post, rfl, by rw [m1]; simp, rfl, rfl, rfl, h6, ?_, rfl, rfl, rfl, rfl, rfl⟩
          rcases m6 with ⟨u, e, _⟩ | ⟨u, e⟩
          · exact Or.inl ⟨u, e⟩
          · exact Or.inr ⟨by simpa using u, e⟩
        · subst hk
          refine ⟨_, p.mem, rfl, by rw [hr]; rfl, rfl, rfl, rfl, h6, ?_, rfl, rfl, rfl, rfl, rfl⟩
          rcases m6 with ⟨u, e, _⟩ | ⟨u, e⟩
          · exact Or.inl ⟨u, e⟩
          · exfalso
            apply hs
            refine ⟨hr, by rw [e, m2]; simp, ?_⟩
            intro hb
            rw [hb] at m2
            have := congrArg List.length m2
            simp only [List.length_nil, List.length_append] at this
            exact hp (List.length_eq_zero_iff.mp (by omega))
  obtain ⟨q, post', c1, c2, c3, c4, c5, c6, c7, c8, c9, c10, c11, c12⟩ := hcomp
  have hql : q.mem.length = (a.rest.length + kept.length) + post'.length := by rw [c2]; simp only [List.length_append]; omega
  obtain ⟨ext, x1, x2, x3⟩ := grow_R g c1 c3 h0 hql (by omega) (by omega)
  refine ⟨_, [], kept, old, post' ++ ext, x1, ?_, ?_, m2, ?_, c4, c5, c6, c7, Nat.zero_le _, x3, c9, c10, c11, c12⟩
  · show q.mem ++ ext = _
    rw [c2]; simp only [List.append_assoc, List.nil_append]
  · rw [List.length_append]; exact x2
  · show q.pos = _
    rw [c3, List.length_nil, Nat.zero_add]

/-- Bytes stored behind the remaining ones. -/
theorem store_R {p p' : P} {a : A} {x : Bool} {pre kept old post : List UInt8} (bs : List UInt8) (h : R p a x) (hc : p.const = false)
    (e1 : p'.mem = pre ++ (kept ++ (a.rest ++ post))) (e2 : bs.length ≤ post.length) (e3 : a.before = old ++ kept) (e4 : p'.pos = pre.length + kept.length)
    (e5 : p'.len = p.len) (e6 : p'.consumed = p.consumed) (e7 : p'.markI = none) (e8 : (p'.markU = none ∧ a.mark = none) ∨ (p'.markU = some pre.length ∧ a.mark = some old.length))
    (e9 : pre.length ≤ old.length) (e10 : p'.mem.length < W) (e11 : p'.const = p.const) (e12 : p'.track = p.track) (e13 : p'.line = p.line) (e14 : p'.col = p.col) :
    ∃ m, wr p'.mem (p'.pos + p'.len) bs = some m ∧ R { p' with mem := m, len := p'.len + bs.length } { a with rest := a.rest ++ bs } x := by
  obtain ⟨_, _, _, _, h1, h2, h3, h4, h5, h6, h7, h8, h9, h10, h11⟩ := h
  obtain ⟨s1, s2, rfl, hs⟩ := split_at post bs.length e2
  have em : p'.mem = (pre ++ kept ++ a.rest) ++ (s1 ++ s2) := by rw [e1]; simp only [List.append_assoc]
  rw [em, wr_mid _ s1 s2 bs _ (by simp only [List.length_append]; omega) hs]
  refine ⟨_, rfl, pre, kept, old, s2, by simp only [List.append_assoc], e3, e4, ?_, ?_, e7, e8, ?_, e9, ?_, ?_⟩
  · show p'.len + bs.length = _
    rw [List.length_append, e5, h4]
  · show p'.consumed = _
    rw [e6, h5]
  · intro hcc
    have : p'.const = true := hcc
    rw [e11, hc] at this; simp at this
  · rw [em] at e10
    simp only [List.length_append] at e10 hs ⊢
    omega
  · intro ht
    have ht : p'.track = true := ht
    rw [e12] at ht
    show p'.line = _ ∧ (_ → p'.col = _)
    rw [e13, e14]
    exact h11 ht

theorem append_R (g : Nat → UInt8) {p : P} {a : A} {x : Bool} (h : R p a x) (bs : List UInt8) (hl : Legal p.const a (.append bs))
    (hn : a.before.length + a.rest.length + bs.length ≤ 9223372036854775808) :
    ∃ p', (append g p bs).map (fun r => (r.1, r.2.toNat, ([] : List UInt8))) = some (p', (spec p.const a (.append bs)).2) ∧ R p' (spec p.const a (.append bs)).1 x ∧ p'.const = p.const ∧ p'.track = p.track := by
  unfold append spec
  cases hc : p.const
  · simp only [Bool.false_eq_true, if_false]
    by_cases h0 : bs.length = 0
    · rw [if_pos h0]
      have : bs = [] := List.length_eq_zero_iff.mp h0
      subst this
      exact ⟨p, rfl, by simpa using h, hc, rfl⟩
    · rw [if_neg h0]
      obtain ⟨p', pre, kept, old, post, e0, e1, e2, e3, e4, e5, e6, e7, e8, e9, e10, e11, e12, e13, e14⟩ :=
        ensure_R g h hc bs.length (by omega) (hl hc (fun e => h0 (by rw [e]; rfl))) hn
      rw [e0, Option.bind_some]
      obtain ⟨m, hm, hr⟩ := store_R bs h hc e1 e2 e3 e4 e5 e6 e7 e8 e9 e10 e11 e12 e13 e14
      rw [hm]
      exact ⟨_, rfl, hr, by show p'.const = false; rw [e11, hc], e12⟩
  · simp only [if_true]
    exact ⟨p, rfl, h, hc, rfl⟩

theorem direct_R (g : Nat → UInt8) {p : P} {a : A} {x : Bool} (h : R p a x) (req : Nat) (bs : List UInt8) (hl : Legal p.const a (.direct req bs))
    (hn : a.before.length + a.rest.length + req ≤ 9223372036854775808) :
    ∃ p', (directWrite g p req bs).map (fun r => (r, 0, ([] : List UInt8))) = some (p', (spec p.const a (.direct req bs)).2) ∧ R p' (spec p.const a (.direct req bs)).1 x ∧ p'.const = p.const ∧ p'.track = p.track := by
  unfold directWrite spec
  cases hc : p.const
  · simp only [Bool.false_eq_true, if_false]
    obtain ⟨p', pre, kept, old, post, e0, e1, e2, e3, e4, e5, e6, e7, e8, e9, e10, e11, e12, e13, e14⟩ := ensure_R g h hc req hl.1 (hl.2.2 hc) hn
    rw [e0, Option.bind_some]
    obtain ⟨m, hm, hr⟩ := store_R bs h hc e1 (Nat.le_trans hl.2.1 e2) e3 e4 e5 e6 e7 e8 e9 e10 e11 e12 e13 e14
    rw [hm]
    exact ⟨_, rfl, hr, by show p'.const = false; rw [e11, hc], e12⟩
  · simp only [if_true]
    exact ⟨p, rfl, h, hc, rfl⟩

theorem read_R {p : P} {a : A} {x : Bool} (h : R p a x) (n : Nat) :
    ∃ p', (readBytes p n).map (fun r => (r.1, r.2.2.toNat, r.2.1)) = some (p', (spec p.const a (.read n)).2) ∧ R p' (spec p.const a (.read n)).1 x ∧ p'.const = p.const ∧ p'.track = p.track := by
  have h' := h
  obtain ⟨pre, kept, old, post, h1, h2, h3, h4, h5, h6, h7, h8, h9, h10, h11⟩ := h
  unfold readBytes spec
  by_cases hb : p.len < n ∨ n = 0
  · rw [if_pos hb]
    simp only [if_neg (show ¬ (0 < n ∧ n ≤ a.rest.length) by omega)]
    exact ⟨p, rfl, h', rfl, rfl⟩
  · rw [if_neg hb]
    simp only [if_pos (show 0 < n ∧ n ≤ a.rest.length by omega)]
    have hl : (a.rest.take n).length = n := by rw [List.length_take]; omega
    have e : p.mem = (pre ++ kept) ++ (a.rest.take n ++ (a.rest.drop n ++ post)) := by
      rw [h1, ← List.append_assoc (a.rest.take n), List.take_append_drop]; simp only [List.append_assoc]
    have er : rd p.mem p.pos n = some (a.rest.take n) := by rw [e]; exact rd_mid _ _ _ _ _ (by rw [List.length_append]; exact h3) hl.symm
    rw [er, Option.bind_some]
    obtain ⟨p', c1, c2, c3, c4⟩ := consume_R h' n (by omega)
    rw [c1]
    exact ⟨p', rfl, c2, c3, c4⟩

theorem readMark_R {p : P} {a : A} {x : Bool} (h : R p a x) (k : Nat) :
    ∃ p', (Parser.readMark p true false k).map (fun r => (r.1, r.2.length, r.2)) = some (p', (spec p.const a (.readMark k)).2) ∧ R p' (spec p.const a (.readMark k)).1 x ∧ p'.const = p.const ∧ p'.track = p.track := by
  obtain ⟨pre, kept, old, post, m1, m2, m3, m4, m5, m6, m7, m8⟩ := h.marked
  unfold Parser.readMark spec
  rw [m4]
  rcases m6 with ⟨u, e, hk⟩ | ⟨u, e⟩
  · subst hk
    rw [if_pos (by simp), e]
    exact ⟨p, rfl, h, rfl, rfl⟩
  · simp only [e]
    have hlen : a.before.length - old.length = kept.length := by rw [m2]; simp
    have hlt : old.length < a.before.length ↔ kept.length ≠ 0 := by rw [m2]; simp only [List.length_append]; omega
    rw [hlen]
    by_cases hb : k = 0 ∨ kept.length = 0 ∨ kept.length > k
    · rw [if_pos hb]
      simp only [if_neg (show ¬ (kept.length ≤ k ∧ old.length < a.before.length) by rw [hlt]; omega)]
      exact ⟨p, rfl, h, rfl, rfl⟩
    · rw [if_neg hb]
      simp only [if_pos (show kept.length ≤ k ∧ old.length < a.before.length by rw [hlt]; omega)]
      have er : rd p.mem pre.length kept.length = some kept := by rw [m1]; exact rd_mid _ _ _ _ _ rfl rfl
      rw [er, Option.bind_some]
      obtain ⟨p', c1, c2, c3, c4⟩ := clear_R h
      rw [c1]
      refine ⟨p', ?_, c2, c3, c4⟩
      simp only [Option.map_some]
      rw [m2]; simp

theorem scan_R {p : P} {a : A} {x : Bool} (h : R p a x) (f : List UInt8 → Nat) (k : Nat) (hl : Legal p.const a (.scan f k)) :
    ∃ p', (readVia f p k).map (fun r => (r.1, r.2.length, r.2)) = some (p', (spec p.const a (.scan f k)).2) ∧ R p' (spec p.const a (.scan f k)).1 x ∧ p'.const = p.const ∧ p'.track = p.track := by
  obtain ⟨hk0, hfk, hfl⟩ := hl
  obtain ⟨pre, kept, old, post, h1, h2, h3, h4, h5, h6, h7, h8, h9, h10, h11⟩ := h
  unfold readVia spec
  have er : rd (markInt p).mem (markInt p).pos (markInt p).len = some a.rest := by
    show rd p.mem p.pos p.len = _
    have e : p.mem = (pre ++ kept) ++ (a.rest ++ post) := by rw [h1]; simp only [List.append_assoc]
    rw [e]; exact rd_mid _ _ _ _ _ (by rw [List.length_append]; exact h3) h4
  simp only [er, Option.bind_some]
  generalize f a.rest = n at *
  have hln : (a.rest.take n).length = n := by rw [List.length_take]; omega
  have e : p.mem = (pre ++ kept) ++ (a.rest.take n ++ (a.rest.drop n ++ post)) := by
    rw [h1, ← List.append_assoc (a.rest.take n), List.take_append_drop]; simp only [List.append_assoc]
  have hc := consume_eq (p := markInt p) e (by rw [List.length_append]; exact h3) (by show _ ≤ p.len; omega)
  rw [hln] at hc
  have hw : wipes (markInt p) = false := by simp [wipes, markInt]
  rw [hw] at hc
  simp only [Bool.false_eq_true, if_false] at hc
  simp only [hc, Option.bind_some]
  have hadv := advance_spec (a.rest.take n) a.before p.line p.col
  have htrack : p.track = true → (if p.track then (advance (p.line, p.col) (a.rest.take n)).1 else p.line) = lines (a.before ++ a.rest.take n) ∧
      (x = true → (if p.track then (advance (p.line, p.col) (a.rest.take n)).2 else p.col) = column (a.before ++ a.rest.take n)) := by
    intro ht
    rw [if_pos ht, if_pos ht]
    exact ⟨hadv.2.1 (h11 ht).1, fun hx => hadv.2.2 ((h11 ht).2 hx)⟩
  -- the state after consuming, with the internal mark still set
  generalize hq : ({ markInt p with
      mem := (markInt p).mem, pos := (markInt p).pos + n, len := (markInt p).len - n, consumed := (markInt p).consumed + n,
      line := if (markInt p).track = true then (advance ((markInt p).line, (markInt p).col) (a.rest.take n)).1 else (markInt p).line,
      col := if (markInt p).track = true then (advance ((markInt p).line, (markInt p).col) (a.rest.take n)).2 else (markInt p).col } : P) = q
  have q1 : q.mem = p.mem := by rw [← hq]; rfl
  have q2 : q.pos = p.pos + n := by rw [← hq]; rfl
  have q3 : q.len = p.len - n := by rw [← hq]; rfl
  have q4 : q.consumed = p.consumed + n := by rw [← hq]; rfl
  have q5 : q.markI = some p.pos := by rw [← hq]; rfl
  have q6 : q.markU = p.markU := by rw [← hq]; rfl
  have q7 : q.const = p.const := by rw [← hq]; rfl
  have q8 : q.track = p.track := by rw [← hq]; rfl
  have q9 : q.line = if p.track then (advance (p.line, p.col) (a.rest.take n)).1 else p.line := by rw [← hq]; rfl
  have q10 : q.col = if p.track then (advance (p.line, p.col) (a.rest.take n)).2 else p.col := by rw [← hq]; rfl
  have hnW : n < W := by rw [h1] at h10; simp only [List.length_append] at h10; omega
  have hst : markedStart q false true = (p.pos, n) := by
    simp only [markedStart, minMark, q5, if_true, Bool.false_eq_true, if_false, q2]
    rw [marked_len rfl hnW]
  -- clearing the internal mark
  have hclear : ∃ p', markClear q false true = some p' ∧ R p' { a with before := a.before ++ a.rest.take n, rest := a.rest.drop n } x ∧ p'.const = p.const ∧ p'.track = p.track := by
    have hbase : ∀ m : List UInt8, m.length < W → (m = p.mem ∨ (p.const = false ∧ p.markU = none ∧ m = (pre ++ kept) ++ (List.replicate n 0xFF ++ (a.rest.drop n ++ post)))) →
        R { q with markI := none, mem := m } { a with before := a.before ++ a.rest.take n, rest := a.rest.drop n } x := by
      intro m hmW hm
      have hlen2 : q.len = (a.rest.drop n).length := by rw [q3, h4, List.length_drop]
      have hcons2 : q.consumed = (a.before ++ a.rest.take n).length := by rw [q4, h5, List.length_append, hln]
      have htr : q.track = true → q.line = lines (a.before ++ a.rest.take n) ∧ (x = true → q.col = column (a.before ++ a.rest.take n)) := by
        intro ht; rw [q8] at ht; rw [q9, q10]; exact htrack ht
      rcases hm with hm | ⟨hcf, hmu, hm⟩
      · subst hm
        refine ⟨pre, kept ++ a.rest.take n, old, post, ?_, ?_, ?_, hlen2, hcons2, rfl, by rw [← q6] at h7; exact h7, ?_, h9, hmW, htr⟩
        · show p.mem = _
          rw [e]; simp only [List.append_assoc]
        · show a.before ++ _ = _
          rw [h2, List.append_assoc]
        · show q.pos = _
          rw [q2, h3, List.length_append, hln]; omega
        · intro hcc; exact h8 (by rw [← q7]; exact hcc)
      · have hmark : a.mark = none := by
          rcases h7 with ⟨_, h⟩ | ⟨h, _⟩
          · exact h
          · rw [hmu] at h; simp at h
        refine ⟨pre ++ kept ++ List.replicate n 0xFF, [], a.before ++ a.rest.take n, post, ?_, by simp, ?_, hlen2, hcons2, rfl, Or.inl ⟨by show q.markU = none; rw [q6]; exact hmu, hmark⟩, ?_, ?_, hmW, htr⟩
        · show m = _
          rw [hm]; simp only [List.append_assoc, List.nil_append]
        · show q.pos = _
          rw [q2, h3]; simp only [List.length_append, List.length_replicate, List.length_nil]; omega
        · intro hcc
          have : q.const = true := hcc
          rw [q7, hcf] at this; simp at this
        · rw [h2]; simp only [List.length_append, List.length_replicate, hln]; omega
    unfold markClear
    simp only [Bool.false_eq_true, if_false, if_true]
    by_cases hd : q.const = true ∨ q.mem = []
    · rw [if_pos hd, if_neg (by simp)]
      refine ⟨_, rfl, ?_, q7, q8⟩
      have := hbase p.mem h10 (Or.inl rfl)
      rw [← q1] at this
      exact this
    · rw [if_neg hd]
      by_cases hu : p.markU = none
      · have hs2 : markedStart q true true = (p.pos, n) := by
          simp only [markedStart, minMark, q5, q6, hu, if_true, q2]
          rw [marked_len rfl hnW]
        rw [hs2]
        by_cases hn0 : n = 0
        · rw [if_neg (by simp [hn0])]
          refine ⟨_, rfl, ?_, q7, q8⟩
          have := hbase p.mem h10 (Or.inl rfl)
          rw [← q1] at this
          exact this
        · rw [if_pos ⟨hn0, trivial, by rw [q6]; exact hu⟩, q1, e, wr_mid _ (a.rest.take n) _ (List.replicate n 0xFF) _ (by rw [List.length_append]; exact h3) (by rw [hln, List.length_replicate]), Option.map_some]
          refine ⟨_, rfl, ?_, q7, q8⟩
          apply hbase
          · rw [e] at h10
            simp only [List.length_append, List.length_replicate, hln] at h10 ⊢
            omega
          · right
            refine ⟨?_, hu, rfl⟩
            cases hcc : p.const
            · rfl
            · exact absurd (Or.inl (by rw [q7]; exact hcc)) hd
      · rw [if_neg (by rw [q6]; simp [hu])]
        refine ⟨_, rfl, ?_, q7, q8⟩
        have := hbase p.mem h10 (Or.inl rfl)
        rw [← q1] at this
        exact this
  obtain ⟨p', c1, c2, c3, c4⟩ := hclear
  by_cases hn0 : n = 0
  · rw [if_pos hn0, c1]
    refine ⟨p', ?_, c2, c3, c4⟩
    simp [hn0]
  · rw [if_neg hn0]
    unfold Parser.readMark
    rw [hst]
    rw [if_neg (by simp only; omega)]
    have er2 : rd q.mem p.pos n = some (a.rest.take n) := by rw [q1, e]; exact rd_mid _ _ _ _ _ (by rw [List.length_append]; exact h3) hln.symm
    simp only [er2, Option.bind_some, c1, Option.map_some, hln]
    exact ⟨p', rfl, c2, c3, c4⟩

theorem step_R (g : Nat → UInt8) {p : P} {a : A} {x : Bool} (h : R p a x) (o : Op) (hl : Legal p.const a o) (hn : a.before.length + a.rest.length + cost o ≤ 9223372036854775808) :
    ∃ p', step g p o = some (p', (spec p.const a o).2) ∧ R p' (spec p.const a o).1 (x && (p.const || !o.back)) ∧ p'.const = p.const ∧ p'.track = p.track := by
  have hx : ∀ o : Op, o.back = false → (x && (p.const || !o.back)) = x := by intro o h; simp [h]
  cases o with
  | append bs =>
    obtain ⟨p', h1, h2, h3, h4⟩ := append_R g h bs hl hn
    exact ⟨p', h1, by rw [hx _ rfl]; exact h2, h3, h4⟩
  | direct req bs =>
    obtain ⟨p', h1, h2, h3, h4⟩ := direct_R g h req bs hl hn
    exact ⟨p', h1, by rw [hx _ rfl]; exact h2, h3, h4⟩
  | consume n =>
    rw [hx _ rfl]
    unfold step spec
    by_cases hb : n ≤ a.rest.length
    · obtain ⟨p', h1, h2, h3, h4⟩ := consume_R h n hb
      simp only [if_pos hb]
      exact ⟨p', by rw [h1]; rfl, h2, h3, h4⟩
    · simp only [if_neg hb]
      have hc : consume p n = some (p, false) := by
        unfold consume
        rw [if_pos (by obtain ⟨_, _, _, _, _, _, _, h4, _⟩ := h; omega)]
      exact ⟨p, by rw [hc]; rfl, h, rfl, rfl⟩
  | truncate n =>
    rw [hx _ rfl]
    unfold step spec
    by_cases hb : n ≤ a.rest.length
    · obtain ⟨p', h1, h2, h3, h4⟩ := truncate_R h n hb
      simp only [if_pos hb]
      exact ⟨p', by rw [h1]; rfl, h2, h3, h4⟩
    · simp only [if_neg hb]
      have hc : truncate p n = some (p, false) := by
        unfold truncate
        rw [if_pos (by obtain ⟨_, _, _, _, _, _, _, h4, _⟩ := h; omega)]
      exact ⟨p, by rw [hc]; rfl, h, rfl, rfl⟩
  | mark => exact ⟨_, rfl, by rw [hx _ rfl]; exact mark_R h, rfl, rfl⟩
  | clear =>
    obtain ⟨p', h1, h2, h3, h4⟩ := clear_R h
    exact ⟨p', by simp [step, h1, spec], by rw [hx _ rfl]; exact h2, h3, h4⟩
  | rewind =>
    obtain ⟨p', h1, h2, h3, h4⟩ := rewind_R h
    exact ⟨p', h1, by simpa [Op.back] using h2, h3, h4⟩
  | reset =>
    obtain ⟨p', h1, h2, h3, h4⟩ := reset_R h
    exact ⟨p', h1, by simpa [Op.back] using h2, h3, h4⟩
  | read n =>
    obtain ⟨p', h1, h2, h3, h4⟩ := read_R h n
    exact ⟨p', h1, by rw [hx _ rfl]; exact h2, h3, h4⟩
  | readMark k =>
    obtain ⟨p', h1, h2, h3, h4⟩ := readMark_R h k
    exact ⟨p', h1, by rw [hx _ rfl]; exact h2, h3, h4⟩
  | scan f k =>
    obtain ⟨p', h1, h2, h3, h4⟩ := scan_R h f k hl
    exact ⟨p', h1, by rw [hx _ rfl]; exact h2, h3, h4⟩

theorem spec_length (c : Bool) (a : A) (o : Op) (hl : Legal c a o) (hm : ∀ m, a.mark = some m → m ≤ a.before.length) :
    (spec c a o).1.before.length + (spec c a o).1.rest.length ≤ a.before.length + a.rest.length + cost o ∧
    ∀ m, (spec c a o).1.mark = some m → m ≤ (spec c a o).1.before.length := by
  cases o with
  | append bs => cases c <;> (refine ⟨?_, hm⟩; simp [spec, cost]; try omega)
  | direct req bs =>
    have := hl.2.1
    cases c <;> (refine ⟨?_, hm⟩; simp [spec, cost]; try omega)
  | consume n =>
    simp only [spec]
    split
    · simp only [List.length_append, List.length_take, List.length_drop, cost]
      exact ⟨by omega, fun m h => by have := hm m h; omega⟩
    · exact ⟨by simp [cost], hm⟩
  | truncate n =>
    simp only [spec]
    split
    · simp only [List.length_take, cost]
      exact ⟨by omega, hm⟩
    · exact ⟨by simp [cost], hm⟩
  | mark => simp [spec, cost]
  | clear => simp [spec, cost]
  | rewind =>
    simp only [spec]
    cases hmk : a.mark with
    | none => simp [cost, hmk]
    | some m =>
      have := hm m hmk
      simp only [List.length_take, List.length_append, List.length_drop, cost]
      refine ⟨by omega, ?_⟩
      intro k hk
      simp at hk; omega
  | reset =>
    simp only [spec]
    split
    · simp only [cost, List.length_nil, List.length_append]
      refine ⟨by omega, ?_⟩
      intro m hmm
      split at hmm
      · simp at hmm; omega
      · simp at hmm
    · exact ⟨by simp [cost], hm⟩
  | read n =>
    simp only [spec]
    split
    · simp only [List.length_append, List.length_take, List.length_drop, cost]
      exact ⟨by omega, fun m h => by have := hm m h; omega⟩
    · exact ⟨by simp [cost], hm⟩
  | readMark k =>
    simp only [spec]
    cases hmk : a.mark with
    | none => simp [cost, hmk]
    | some m =>
      simp only
      split
      · simp [cost]
      · exact ⟨by simp [cost], by rw [hmk] at hm; simpa [hmk] using hm⟩
  | scan f k =>
    have := hl.2.2
    simp only [spec, List.length_append, List.length_take, List.length_drop, cost]
    exact ⟨by omega, fun m h => by have := hm m h; omega⟩

theorem run_R (g : Nat → UInt8) : ∀ (os : List Op) (p : P) (a : A) (x : Bool), R p a x → (∀ m, a.mark = some m → m ≤ a.before.length) → LegalRun p.const a os →
    a.before.length + a.rest.length + (os.map cost).sum ≤ 9223372036854775808 →
    ∃ p', run g p os = some (p', (specRun p.const a os).2) ∧ R p' (specRun p.const a os).1 (x && os.all fun o => p.const || !o.back) ∧ p'.track = p.track := by
  intro os
  induction os with
  | nil => intro p a x h _ _ _; exact ⟨p, rfl, by simpa [specRun] using h, rfl⟩
  | cons o os ih =>
    intro p a x h hm hl hn
    simp only [List.map_cons, List.sum_cons] at hn
    obtain ⟨p1, e1, r1, c1, t1⟩ := step_R g h o hl.1 (by omega)
    have hsl := spec_length p.const a o hl.1 hm
    obtain ⟨p2, e2, r2, t2⟩ := ih p1 (spec p.const a o).1 _ r1 hsl.2 (by rw [c1]; exact hl.2) (by omega)
    rw [c1] at e2 r2
    refine ⟨p2, ?_, ?_, by rw [t2, t1]⟩
    · unfold run
      rw [e1, Option.bind_some]
      simp only [e2, Option.map_some]
      rfl
    · rw [List.all_cons, ← Bool.and_assoc]; exact r2

/-! ### Theorems -/

/-- **C31.** Every history of a dynamic parser (appends, direct writes, consuming, truncating, marking, rewinding, reading,
scanning reads) runs without an access outside the allocation, returns what the stream says, and leaves the parser
showing the remaining bytes, the offset, the marked bytes and the line of the stream position; and the column if
nothing went back.  Partial: see `Legal` for the two excluded situations, and at most 2^63 bytes are asked for. -/
theorem dynamic_partial (g : Nat → UInt8) (t : Bool) (os : List Op) (hl : LegalRun false { before := [], rest := [], mark := none } os) (hn : (os.map cost).sum ≤ 9223372036854775808) :
    ∃ p, run g (create t) os = some (p, (specRun false { before := [], rest := [], mark := none } os).2) ∧ p.track = t ∧
      Shows p (specRun false { before := [], rest := [], mark := none } os).1 (os.all fun o => !o.back) := by
  obtain ⟨p, h1, h2, h3⟩ := run_R g os (create t) _ true (create_R t) (by simp) hl (by simpa using hn)
  refine ⟨p, h1, h3, ?_⟩
  have := h2.shows
  simpa [create] using this

/-- **C31.** The same for a parser of constant data, where line and column are always exact. -/
theorem constant_partial (g : Nat → UInt8) (t : Bool) (bytes : List UInt8) (os : List Op) (hb : bytes.length + (os.map cost).sum ≤ 9223372036854775808)
    (hl : LegalRun true { before := [], rest := bytes, mark := none } os) :
    ∃ p, run g (createConst bytes t) os = some (p, (specRun true { before := [], rest := bytes, mark := none } os).2) ∧ p.track = t ∧
      Shows p (specRun true { before := [], rest := bytes, mark := none } os).1 true := by
  obtain ⟨p, h1, h2, h3⟩ := run_R g os (createConst bytes t) _ true (createConst_R bytes t (by unfold W; omega)) (by simp) hl (by simpa using hb)
  refine ⟨p, h1, h3, ?_⟩
  have := h2.shows
  have hall : (true && os.all fun o => (createConst bytes t).const || !o.back) = true := by
    rw [Bool.true_and, List.all_eq_true]; intro o _; rfl
  rw [hall] at this
  exact this

/-- **C31 is false** when bytes are appended while everything is consumed and the mark stands at the end: the mark keeps
its old offset although the data starts again at the front.  After appending "abc", consuming it, marking, and
appending "def", the marked length is 2^64 - 3 instead of 0, and peeking at the marked bytes leaves the buffer; after
consuming "def" nothing can be rewound instead of three bytes. -/
theorem stale_mark :
    (run (fun _ => 0) (create false) [.append [97, 98, 99], .consume 3, .mark, .append [100, 101, 102]]).map (fun r => (markLen r.1, peekMark r.1)) = some (18446744073709551613, none) ∧
    (run (fun _ => 0) (create false) [.append [97, 98, 99], .consume 3, .mark, .append [100, 101, 102], .consume 3, .rewind]).map (fun r => r.2.getLast?) = some (some (0, [])) ∧
    (specRun false { before := [], rest := [], mark := none } [.append [97, 98, 99], .consume 3, .mark, .append [100, 101, 102], .consume 3, .rewind]).2.getLast? = some (3, []) := by decide +kernel

/-- **C31 is false** for the column after a rewind of a dynamic parser: the line feed before the mark was overwritten when
it was consumed. -/
theorem column_fails :
    (run (fun _ => 0) (create true) [.append [97, 10, 98, 99], .consume 3, .mark, .consume 1, .rewind]).map (fun r => (curLine r.1, curCol r.1)) = some (2, 4) ∧
    column [97, 10, 98] + 1 = 2 := by decide +kernel

/-- A scanning read into a buffer that is too small returns nothing, yet the bytes are gone. -/
theorem short_buffer :
    (run (fun _ => 0) (createConst [97, 97, 98] false) [.scan (fun l => (l.takeWhile (· = 97)).length) 1]).map (fun r => (r.2, offset r.1, r.1.markI)) = some ([(0, [])], 2, some 0) := by decide +kernel

/-! ### Examples -/

/-- A history with compaction under a mark. -/
def sample : List Op := [.append [97, 98, 99], .consume 1, .mark, .consume 1, .append [100, 10, 101, 102, 103, 104, 105], .consume 4, .rewind, .scan (fun l => (l.takeWhile (· ≠ 10)).length) 10, .readMark 9, .truncate 3, .read 2]

example : LegalRun false { before := [], rest := [], mark := none } sample := by
  simp only [sample, LegalRun, Legal, spec]; decide
example : specRun false { before := [], rest := [], mark := none } sample =
    ({ before := [97, 98, 99, 100, 10, 101], rest := [102], mark := none }, [(1, []), (1, []), (0, []), (1, []), (1, []), (1, []), (5, []), (3, [98, 99, 100]), (3, [98, 99, 100]), (1, []), (1, [10, 101])]) := by decide +kernel
example : (run (fun _ => 7) (create true) sample).map (·.2) = some (specRun false { before := [], rest := [], mark := none } sample).2 := by decide +kernel
example : LegalRun true { before := [], rest := [97, 10, 98], mark := none } [.consume 2, .mark, .consume 1, .rewind, .reset] := by simp only [LegalRun, Legal, spec]; decide

end Verif.Parser
