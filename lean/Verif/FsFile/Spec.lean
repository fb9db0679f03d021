import Verif.FsFile.Model

/-! What a file is to its user: bytes and a position, without any buffer.  Nothing here uses the functions of the model. -/

namespace Verif.FsFile

/-- A file as its user sees it. -/
structure Plain where
  bytes : List UInt8
  pos : Nat

/-- `c'` is `c` with the bytes `bs` at offset `p`; a gap past the old end holds zeros. -/
def Written (c : List UInt8) (p : Nat) (bs c' : List UInt8) : Prop :=
  ∀ i, c'[i]? =
    if p ≤ i ∧ i < p + bs.length then bs[i - p]?
    else if i < c.length then c[i]?
    else if i < p then some 0
    else none

/-- Where a seek asks to go. -/
def SeekTo (p : Plain) (off : Int) : From → Int
  | .begin => off
  | .cur => p.pos + off
  | .end => p.bytes.length + off

/-- One call on a plain file (`append`: opened for appending) and what it reports. -/
inductive PStep (append : Bool) : Plain → Op → Out → Plain → Prop
  /-- A read gives the bytes at the position, in order, at most as many as asked for, and moves past them.  A successful
  read gives nothing only if fewer bytes are left than were asked for; with `FULLBUF` it then also gives all asked for. -/
  | read {p : Plain} {n : Nat} {full ok : Bool} {bs : List UInt8} : 0 < n → bs.length ≤ n →
      (∀ i, i < bs.length → p.bytes[p.pos + i]? = bs[i]?) →
      (ok = true → bs = [] ∨ full = true → bs.length = n ∨ p.bytes.length < p.pos + n) →
      PStep append p (.read n full) (.read ok bs) { p with pos := p.pos + bs.length }
  | readNothing {p : Plain} {full : Bool} : PStep append p (.read 0 full) (.read false []) p
  /-- A write puts the first `k` bytes at the position (or the end) and moves past them; `k` is reported.  Success means
  at least one byte, with `FULLBUF` all of them. -/
  | write {p p' : Plain} {bs : List UInt8} {full ok : Bool} {k : Nat} : bs ≠ [] → k ≤ bs.length →
      (ok = true → 0 < k ∧ (full = true → k = bs.length)) → (k = 0 → p' = p) →
      (0 < k → Written p.bytes (if append then p.bytes.length else p.pos) (bs.take k) p'.bytes ∧
        p'.pos = (if append then p.bytes.length else p.pos) + k) →
      PStep append p (.write bs full) (.write ok k) p'
  | writeNothing {p : Plain} {full : Bool} : PStep append p (.write [] full) (.write false 0) p
  /-- A seek that succeeds goes where it was asked to. -/
  | seek {p : Plain} {off : Int} {frm : From} {q : Nat} : (q : Int) = SeekTo p off frm →
      PStep append p (.seek off frm) (.seek true) { p with pos := q }
  /-- A seek before the start of the file fails and does nothing. -/
  | seekFail {p : Plain} {off : Int} {frm : From} : SeekTo p off frm < 0 →
      PStep append p (.seek off frm) (.seek false) p
  | sync {p : Plain} {ok : Bool} : PStep append p .sync (.sync ok) p

/-- A history of calls on a plain file. -/
inductive PRun (append : Bool) : Plain → List Op → List Out → Plain → Prop
  | nil {p : Plain} : PRun append p [] [] p
  | cons {p q r : Plain} {op : Op} {ops : List Op} {o : Out} {os : List Out} :
      PStep append p op o q → PRun append q ops os r → PRun append p (op :: ops) (o :: os) r

end Verif.FsFile
