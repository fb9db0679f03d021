import Verif.Re.Model
import Verif.Utf8.Props
/-! What matching means: paths through the automaton along a piece of the text.  Nothing here uses the matcher. -/
namespace Verif.Re
open Verif.Utf8 (flat Good)

/-- The byte offset of the place before the `j`th character. -/
def off (w : List Nat) (j : Nat) : Nat := (flat (w.take j)).length

/-- Word characters around a place: is the character before it one, and the one after it? -/
def WordBefore (alnum : Nat → Bool) (w : List Nat) (j : Nat) : Prop :=
  ∃ i c, j = i + 1 ∧ w[i]? = some c ∧ (c = 95 ∨ alnum c = true)

def WordAfter (alnum : Nat → Bool) (w : List Nat) (j : Nat) : Prop :=
  ∃ c, w[j]? = some c ∧ (c = 95 ∨ alnum c = true)

/-- When the assertions of a transition hold at the place before the `j`th character of the text: beginning and end of line,
beginning and end of word, word boundary and its contrary.  Both ends of the text count as word boundaries. -/
structure Asserted (alnum : Nat → Bool) (ml : Bool) (w : List Nat) (j : Nat) (a : Nat) : Prop where
  bol : a.testBit 0 → j = 0 ∨ (ml = true ∧ ∃ i, j = i + 1 ∧ w[i]? = some 10)
  eol : a.testBit 1 → j = w.length ∨ (ml = true ∧ w[j]? = some 10)
  bow : a.testBit 4 → ¬ WordBefore alnum w j ∧ WordAfter alnum w j
  eow : a.testBit 5 → WordBefore alnum w j ∧ ¬ WordAfter alnum w j
  wb : a.testBit 6 → j = 0 ∨ j = w.length ∨ ¬ (WordBefore alnum w j ↔ WordAfter alnum w j)
  nwb : a.testBit 7 → j ≠ 0 ∧ j ≠ w.length ∧ (WordBefore alnum w j ↔ WordAfter alnum w j)

/-- A path through the automaton that starts before the `i`th character, has read the text up to the `j`th and is in state `q`;
the last argument lists which tags were set where. -/
inductive Path (alnum : Nat → Bool) (t : Tnfa) (w : List Nat) : Nat → Nat → Nat → List (List Nat × Nat) → Prop
  | init {i : Nat} {tr : Trans} (hi : i ≤ w.length) (ht : tr ∈ t.initial) (ha : Asserted alnum t.multiline w i tr.asr) :
      Path alnum t w i i tr.dst [(tr.tags, i)]
  | step {i j q c : Nat} {h : List (List Nat × Nat)} {tr : Trans} (hp : Path alnum t w i j q h) (ht : tr ∈ t.out q)
      (hc : w[j]? = some c) (hlo : tr.lo ≤ c) (hhi : (c : Int) ≤ tr.hi) (ha : Asserted alnum t.multiline w (j + 1) tr.asr) :
      Path alnum t w i (j + 1) tr.dst (h ++ [(tr.tags, j + 1)])

/-- The text from the `i`th to the `j`th character is a match. -/
def Matches (alnum : Nat → Bool) (t : Tnfa) (w : List Nat) (i j : Nat) : Prop := ∃ h, Path alnum t w i j t.final h

/-- The value of a tag after a path: the place where it was last set, in bytes, or -1. -/
def TagIs (w : List Nat) (h : List (List Nat × Nat)) (k : Nat) (v : Int) : Prop :=
  (∃ h1 ks j h2, h = h1 ++ (ks, j) :: h2 ∧ k ∈ ks ∧ (∀ x ∈ h2, k ∉ x.1) ∧ v = off w j) ∨
  ((∀ x ∈ h, k ∉ x.1) ∧ v = -1)

/-- The automaton records where a match starts in tag 0: set when a path starts and never again; smaller values win. -/
structure StartTag (t : Tnfa) : Prop where
  some_tag : 0 < t.numTags
  init : ∀ tr ∈ t.initial, 0 ∈ tr.tags
  later : ∀ q, ∀ tr ∈ t.out q, 0 ∉ tr.tags
  small : t.small[0]? = some true

/-- At most one transition leads to the final state. -/
def OneFinal (t : Tnfa) : Prop :=
  ∃ q0, (∀ q, q ≠ q0 → ∀ tr ∈ t.out q, tr.dst ≠ t.final) ∧ ((t.out q0).filter fun tr => tr.dst == t.final).length ≤ 1

/-- No other match starts earlier, and none that starts there is longer. -/
def IsBest (alnum : Nat → Bool) (t : Tnfa) (w : List Nat) (i j : Nat) : Prop :=
  Matches alnum t w i j ∧ ∀ i' j', Matches alnum t w i' j' → i < i' ∨ (i' = i ∧ j' ≤ j)

/-- The automaton reports the whole match as submatch 0, from tag 0 to the end. -/
structure Whole (t : Tnfa) : Prop where
  sub : t.subs[0]? = some ⟨0, t.endTag, []⟩
  endTag : t.endTag ≠ 0

/-- What the theorems about the choice among matches need: starts are recorded, no lazy repetition, and either no other tag or one
way to finish. -/
structure Plain (t : Tnfa) : Prop where
  start : StartTag t
  whole : Whole t
  greedy : t.minimals = []
  tie : t.numTags = 1 ∨ OneFinal t

/-- The offset a tag stands for in a match that ends at `eo`. -/
def Value (t : Tnfa) (eo : Nat) (tg : List Int) (k : Nat) (v : Int) : Prop :=
  (k = t.endTag ∧ v = eo) ∨ (k ≠ t.endTag ∧ v = tg.getD k 0)

/-- Beginning and end of a submatch by its tags: both or none. -/
def Raw (t : Tnfa) (eo : Nat) (tg : List Int) (d : Sub) (r : Int × Int) : Prop :=
  ∃ a b, Value t eo tg d.so a ∧ Value t eo tg d.eo b ∧
    (((a = -1 ∨ b = -1) ∧ r = (-1, -1)) ∨ (a ≠ -1 ∧ b ≠ -1 ∧ r = (a, b)))

/-- Cutting a text into its matches: the best match of the text, then the same for the rest, which is taken as a text of its own.
`base` is the offset of the text; the list has offset and length in bytes of each match. -/
inductive Tokens (alnum : Nat → Bool) (t : Tnfa) : List Nat → Nat → List (Int × Int) → Prop
  | done {w : List Nat} {base : Nat} (h : ∀ i j, ¬ Matches alnum t w i j) : Tokens alnum t w base []
  | more {w : List Nat} {base i j : Nat} {r : List (Int × Int)} (h : IsBest alnum t w i j) (hj : 0 < j)
      (hr : Tokens alnum t (w.drop j) (base + off w j) r) :
      Tokens alnum t w base (((base + off w i : Nat), ((off w j - off w i : Nat) : Int)) :: r)

end Verif.Re
