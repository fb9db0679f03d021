import Verif.Parser.Model
import Verif.Buf.Lemmas
import Verif.Bithacks.Props
/- Helper lemmas about the parser: what each operation does to a parser that holds a given stream. -/
namespace Verif.Parser
open Verif.Buf (W wr rd realloc wr_mid rd_mid split_at)

/-- The number of line feeds. -/
def lines (l : List UInt8) : Nat := (l.filter (· = 10)).length
/-- The number of bytes behind the last line feed. -/
def column (l : List UInt8) : Nat := (l.reverse.takeWhile (· ≠ 10)).length

theorem scanBack_eq (l : List UInt8) : scanBack l = (l.takeWhile (· ≠ 10)).length := by
  induction l with
  | nil => rfl
  | cons c cs ih =>
    unfold scanBack
    rw [List.takeWhile_cons]
    by_cases h : c = 10
    · simp [h]
    · simp [h, ih]

theorem column_snoc (l : List UInt8) (c : UInt8) : column (l ++ [c]) = if c = 10 then 0 else column l + 1 := by
  unfold column
  rw [List.reverse_append, List.reverse_singleton, List.singleton_append, List.takeWhile_cons]
  by_cases h : c = 10 <;> simp [h]

theorem lines_append (a b : List UInt8) : lines (a ++ b) = lines a + lines b := by simp [lines]

theorem advance_spec (bs : List UInt8) : ∀ (l : List UInt8) (ln cl : Nat), advance (ln, cl) bs = ((advance (ln, cl) bs).1, (advance (ln, cl) bs).2) ∧
    (ln = lines l → (advance (ln, cl) bs).1 = lines (l ++ bs)) ∧ (cl = column l → (advance (ln, cl) bs).2 = column (l ++ bs)) := by
  induction bs with
  | nil => intro l ln cl; exact ⟨rfl, fun h => by rw [List.append_nil]; exact h, fun h => by rw [List.append_nil]; exact h⟩
  | cons c cs ih =>
    intro l ln cl
    refine ⟨rfl, ?_, ?_⟩
    · intro h
      unfold advance
      have e : l ++ c :: cs = (l ++ [c]) ++ cs := by simp
      rw [e]
      by_cases hc : c = 10
      · rw [if_pos hc]
        exact (ih (l ++ [c]) (ln + 1) 0).2.1 (by rw [h, lines_append]; simp [lines, hc])
      · rw [if_neg hc]
        exact (ih (l ++ [c]) ln (cl + 1)).2.1 (by rw [h, lines_append]; simp [lines, hc])
    · intro h
      unfold advance
      have e : l ++ c :: cs = (l ++ [c]) ++ cs := by simp
      rw [e]
      by_cases hc : c = 10
      · rw [if_pos hc]
        exact (ih (l ++ [c]) (ln + 1) 0).2.2 (by rw [column_snoc, if_pos hc])
      · rw [if_neg hc]
        exact (ih (l ++ [c]) ln (cl + 1)).2.2 (by rw [column_snoc, if_neg hc, h])

/-- Whether consuming overwrites the bytes. -/
def wipes (p : P) : Bool := p.const = false ∧ p.mem ≠ [] ∧ p.markU = none ∧ p.markI = none

theorem consume_eq {p : P} {l x r : List UInt8} (hm : p.mem = l ++ (x ++ r)) (hp : p.pos = l.length) (hn : x.length ≤ p.len) :
    consume p x.length = some ({ p with
      mem := if wipes p then l ++ (List.replicate x.length 0xFF ++ r) else p.mem, pos := p.pos + x.length, len := p.len - x.length, consumed := p.consumed + x.length,
      line := if p.track then (advance (p.line, p.col) x).1 else p.line, col := if p.track then (advance (p.line, p.col) x).2 else p.col }, true) := by
  unfold consume
  rw [if_neg (by omega)]
  have e1 : rd p.mem p.pos x.length = some x := by rw [hm]; exact rd_mid l x r _ _ hp rfl
  have e2 : wr p.mem p.pos (List.replicate x.length 0xFF) = some (l ++ (List.replicate x.length 0xFF ++ r)) := by
    rw [hm]; exact wr_mid l x r _ _ hp (by simp)
  rw [e1, Option.bind_some]
  unfold wipes
  by_cases h : p.const = false ∧ p.mem ≠ [] ∧ p.markU = none ∧ p.markI = none
  · rw [if_pos h, e2, Option.map_some]
    simp only [h, decide_true, if_true, and_self, ne_eq, not_false_eq_true]
  · rw [if_neg h, Option.map_some]
    simp only [h, decide_false, Bool.false_eq_true, if_false]

/-- The marked region. -/
theorem marked_len {pos m n : Nat} (h : pos = m + n) (hw : n < W) : (pos + W - m) % W = n := by
  have : pos + W - m = n + W := by omega
  rw [this, Nat.add_mod_right]; exact Nat.mod_eq_of_lt hw

end Verif.Parser
