import Verif.LList.Model
import Verif.Hash.Model
/- Model of `base/data/m_queue.c` without sort callback, on top of the models of the linked list and the hashtable.
Members are pointers, the null pointer is 0.  `none` means that one of the two containers misbehaved (dead node, index
out of range). -/
namespace Verif.Queue

open Verif

/-- `base/sort/m_sort_compar.c:106-128`, `M_sort_compar_vp`; the callbacks receive the address of the pointers. -/
def vpCmp (a b : Nat) : Int := if a < b then -1 else if a > b then 1 else 0

/-- The hashtable parameters used by `base/data/m_queue.c:35-48`, `M_queue_create`.  `hash` is the seeded
`M_hash_func_hash_vp`, an arbitrary function here. -/
def cfg (hash : Nat → Nat) : Hash.Cfg Nat Nat :=
  { cmp := vpCmp, hash := hash, vcmp := vpCmp, multi := false, multiSorted := false, getLast := false, ordered := false,
    keysSorted := false, fillpct := 75 }

/-- `base/data/m_queue.c:28-31`. -/
structure Q where
  list : LList.L Nat
  hash : Hash.HT Nat Nat

/-- `base/data/m_queue.c:35-48`, `M_queue_create` with sort_cb == NULL. -/
def create (hf : Nat → Nat) : Option Q := (Hash.create (cfg hf) 16).map fun h => { list := LList.create false, hash := h }

/-- `base/data/m_queue.c:62-76`, `M_queue_insert`. -/
def insert (hf : Nat → Nat) (q : Q) (member : Nat) : Option (Bool × Q) :=
  if member = 0 then some (false, q) else do
    let found ← Hash.get (cfg hf) q.hash member
    if found.isSome then some (false, q) else do
      let (node, list) ← LList.insert q.list member
      let hash ← Hash.insert (cfg hf) q.hash member node
      some (true, { list := list, hash := hash })

/-- `base/data/m_queue.c:79-93`, `M_queue_remove`, and `M_queue_take`, 95-109: they differ only in the free callback. -/
def remove (hf : Nat → Nat) (q : Q) (member : Nat) : Option (Bool × Q) :=
  if member = 0 then some (false, q) else do
    let found ← Hash.get (cfg hf) q.hash member
    match found with
    | none => some (false, q)
    | some node => do
      let (_, list) ← LList.takeNode q.list node
      let (_, hash) ← Hash.remove (cfg hf) q.hash member
      some (true, { list := list, hash := hash })

/-- `base/data/m_queue.c:113-124`, `M_queue_exists`. -/
def exists' (hf : Nat → Nat) (q : Q) (member : Nat) : Option Bool :=
  if member = 0 then some false else (Hash.get (cfg hf) q.hash member).map Option.isSome

/-- `base/data/m_queue.c:127-133`, `M_queue_len`. -/
def len (q : Q) : Nat := q.list.elements

/-- The value of a node, NULL for the null node. -/
def nodeVal (q : Q) : Option Nat → Option Nat
  | none => some 0
  | some n => q.list.val n

/-- `base/data/m_queue.c:136-148`, `M_queue_first`. -/
def first (q : Q) : Option Nat := nodeVal q q.list.head

/-- `base/data/m_queue.c:151-171`, `M_queue_take_first`. -/
def takeFirst (hf : Nat → Nat) (q : Q) : Option (Nat × Q) :=
  match q.list.head with
  | none => some (0, q)
  | some node => do
    let (member, list) ← LList.takeNode q.list node
    let (_, hash) ← Hash.remove (cfg hf) q.hash member
    some (member, { list := list, hash := hash })

/-- `base/data/m_queue.c:174-186`, `M_queue_last`. -/
def last (q : Q) : Option Nat := nodeVal q q.list.tail

/-- The cursor of an enumeration: NULL, a node, or the invalid address that marks the end. -/
inductive Cursor where
  | start
  | node (n : Nat)
  | fin

/-- `base/data/m_queue.c:189-218`, `M_queue_foreach`: the member (if the call returned M_TRUE) and the new cursor. -/
def foreach (q : Q) (cur : Cursor) : Option (Option Nat × Cursor) :=
  let cur : Cursor := match cur, q.list.head with
    | .start, some h => .node h
    | c, _ => c
  match cur with
  | .start => some (none, .start)
  | .fin => some (none, .start)
  | .node n => do
    let v ← q.list.val n
    let nx ← LList.getNext q.list n
    some (some v, match nx with | none => .fin | some m => .node m)

/-- Calling `M_queue_foreach` until it returns M_FALSE: the members reported. -/
def foreachAll (q : Q) : Nat → Cursor → Option (List Nat)
  | 0, _ => none
  | fuel + 1, cur => do
    let (v, cur) ← foreach q cur
    match v with
    | none => some []
    | some v => (foreachAll q fuel cur).map (v :: ·)

end Verif.Queue
