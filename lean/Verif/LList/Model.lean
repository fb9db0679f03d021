/- Model of the unsorted doubly linked list of `base/list/m_llist.c` (plain and circular).

Nodes are heap cells.  A cell is live when `val` has an entry for it; every access to a dead cell (use after free) makes
the function return `none`.  `fresh` is the next address the allocator hands out (an address is never reused, which only
makes dangling pointers easier to see).  The callbacks `duplicate_*` and `value_free` are the defaults (identity, no-op);
`parent` is not stored, there is one list. -/
namespace Verif.LList

/-- `base/list/m_llist.c:35-76`, `struct M_llist` with M_LLIST_SORTED clear and its nodes. -/
structure L (α : Type _) where
  circular : Bool
  val : Nat → Option α
  next : Nat → Option Nat
  prev : Nat → Option Nat
  head : Option Nat
  tail : Option Nat
  elements : Nat
  fresh : Nat

variable {α : Type _}

/-- Pointwise update. -/
def upd {β : Type _} (f : Nat → β) (i : Nat) (v : β) : Nat → β := fun j => if j = i then v else f j

/-- `p->links.unsorted.next`, `none` for a dead cell. -/
def getNext (l : L α) (p : Nat) : Option (Option Nat) := if (l.val p).isSome then some (l.next p) else none

def getPrev (l : L α) (p : Nat) : Option (Option Nat) := if (l.val p).isSome then some (l.prev p) else none

/-- `p->links.unsorted.next = q`. -/
def setNext (l : L α) (p : Nat) (q : Option Nat) : Option (L α) :=
  if (l.val p).isSome then some { l with next := upd l.next p q } else none

def setPrev (l : L α) (p : Nat) (q : Option Nat) : Option (L α) :=
  if (l.val p).isSome then some { l with prev := upd l.prev p q } else none

/-- `base/list/m_llist.c:493-525`, `M_llist_create` (not sorted). -/
def create (circular : Bool) : L α :=
  { circular := circular, val := fun _ => none, next := fun _ => none, prev := fun _ => none, head := none, tail := none,
    elements := 0, fresh := 0 }

/-- `base/list/m_llist.c:142-159`, `M_llist_node_create`. -/
def nodeCreate (l : L α) (v : α) : Nat × L α :=
  (l.fresh, { l with
    val := upd l.val l.fresh (some v)
    next := upd l.next l.fresh none
    prev := upd l.prev l.fresh none
    fresh := l.fresh + 1 })

/-- `base/list/m_llist.c:161-182`, `M_llist_node_destory`. -/
def nodeDestroy (l : L α) (p : Nat) : L α :=
  { l with
    val := upd l.val p none
    next := upd l.next p none
    prev := upd l.prev p none }

/-- `base/list/m_llist.c:184-211`, `M_llist_node_unlink`. -/
def unlink (l : L α) (n : Nat) : Option (L α) := do
  let nx ← getNext l n
  let pv ← getPrev l n
  let l ← match nx with
    | none => some l
    | some q => setPrev l q pv
  let l ← match pv with
    | none => some l
    | some q => setNext l q nx
  -- the links of n are read again for head and tail (lines 204-207)
  let nx ← getNext l n
  let l := if l.head = some n then { l with head := nx } else l
  let pv ← getPrev l n
  let l := if l.tail = some n then { l with tail := pv } else l
  let l ← setNext l n none
  setPrev l n none

/-- `base/list/m_llist.c:291-338`, `M_llist_insert_unsorted`. -/
def insertUnsorted (l : L α) (node : Nat) (after : Option Nat) : Option (L α) :=
  match after with
  | none => do
    let l ← setNext l node l.head
    let l ← match l.head with
      | some h => setPrev l h (some node)
      | none => if l.circular then setNext l node (some node) else some l
    let l := { l with head := some node }
    let l := if l.tail = none then { l with tail := some node } else l
    let l ← if l.circular then do
        let l ← setPrev l node l.tail
        match l.tail with
        | none => none
        | some t => setNext l t (some node)
      else some l
    some { l with elements := l.elements + 1 }
  | some a => do
    let l ← setPrev l node (some a)
    let nx ← getNext l a
    let l ← setNext l node nx
    let l ← setNext l a (some node)
    let nx ← getNext l node
    let l ← match nx with
      | none => some { l with tail := some node }
      | some q =>
        let l := if l.circular ∧ some q = l.head then { l with tail := some node } else l
        setPrev l q (some node)
    some { l with elements := l.elements + 1 }

/-- `base/list/m_llist.c:576-587`, `M_llist_insert`, with `M_llist_insert_node` (340-347). -/
def insert (l : L α) (v : α) : Option (Nat × L α) :=
  let r := nodeCreate l v
  (insertUnsorted r.2 r.1 r.2.tail).map fun l => (r.1, l)

/-- `base/list/m_llist.c:589-601`, `M_llist_insert_first`. -/
def insertFirst (l : L α) (v : α) : Option (Nat × L α) :=
  let r := nodeCreate l v
  (insertUnsorted r.2 r.1 none).map fun l => (r.1, l)

/-- `base/list/m_llist.c:603-614`, `M_llist_insert_before`. -/
def insertBefore (l : L α) (n : Nat) (v : α) : Option (Nat × L α) :=
  let r := nodeCreate l v
  (getPrev r.2 n).bind fun p => (insertUnsorted r.2 r.1 p).map fun l => (r.1, l)

/-- `base/list/m_llist.c:616-627`, `M_llist_insert_after`. -/
def insertAfter (l : L α) (n : Nat) (v : α) : Option (Nat × L α) :=
  let r := nodeCreate l v
  if (r.2.val n).isSome then (insertUnsorted r.2 r.1 (some n)).map fun l => (r.1, l) else none

/-- `base/list/m_llist.c:667-700`, `M_llist_move_before`. -/
def moveBefore (l : L α) (move before : Nat) : Option (Bool × L α) :=
  if before = move then some (false, l) else do
    let nx ← getNext l move
    if nx = some before then some (true, l) else do
      let l ← unlink l move
      let l := if l.head = some before then { l with head := some move } else l
      let prev ← getPrev l before
      let l ← setPrev l before (some move)
      let l ← setNext l move (some before)
      let l ← setPrev l move prev
      let l ← match prev with
        | none => some l
        | some q => setNext l q (some move)
      some (true, l)

/-- `base/list/m_llist.c:702-735`, `M_llist_move_after`. -/
def moveAfter (l : L α) (move after : Nat) : Option (Bool × L α) :=
  if after = move then some (false, l) else do
    let pv ← getPrev l move
    if pv = some after then some (true, l) else do
      let l ← unlink l move
      let l := if l.tail = some after then { l with tail := some move } else l
      let next ← getNext l after
      let l ← setNext l after (some move)
      let l ← setPrev l move (some after)
      let l ← setNext l move next
      let l ← match next with
        | none => some l
        | some q => setPrev l q (some move)
      some (true, l)

/-- `base/list/m_llist.c:629-645`, `M_llist_set_first`. -/
def setFirst (l : L α) (n : Nat) : Option (L α) :=
  if (l.val n).isNone then none
  else if l.elements ≤ 1 then some l
  else if l.circular then some { l with tail := l.prev n, head := some n }
  else
    match l.head with
    | none => some l
    | some h => (moveBefore l n h).map (·.2)

/-- `base/list/m_llist.c:647-663`, `M_llist_set_last`. -/
def setLast (l : L α) (n : Nat) : Option (L α) :=
  if (l.val n).isNone then none
  else if l.elements ≤ 1 then some l
  else if l.circular then some { l with head := l.next n, tail := some n }
  else
    match l.tail with
    | none => some l
    | some t => (moveAfter l n t).map (·.2)

/-- `base/list/m_llist.c:430-489`, `M_llist_take_remove_node` on an unsorted list: the value and the list. -/
def takeNode (l : L α) (n : Nat) : Option (α × L α) := do
  let l ← unlink l n
  let v ← l.val n
  let l := nodeDestroy l n
  some (v, { l with elements := l.elements - 1 })

/-- The matching loop of `base/list/m_llist.c:349-428`, `M_llist_match_op_val_int`, for an unsorted list.  `eq` is the
match test (equality callback or pointer comparison), `remove` the operation, `all` M_LLIST_MATCH_ALL.  `none` when a
dead node is touched or the fuel runs out. -/
def matchLoop (eq : α → Bool) (remove all : Bool) (first : Option Nat) : Nat → L α → Option Nat → Nat → Option (Nat × L α)
  | _, l, none, cnt => some (cnt, l)
  | 0, _, some _, _ => none
  | fuel + 1, l, some node, cnt => do
    let next ← getNext l node
    let v ← l.val node
    let (cnt, l) ← if eq v then (if remove then (takeNode l node).map fun r => (cnt + 1, r.2) else some (cnt + 1, l))
      else some (cnt, l)
    if cnt = 1 ∧ ¬ all ∧ remove then some (cnt, l)
    else if next = first then some (cnt, l)
    else matchLoop eq remove all first fuel l next cnt

/-- `base/list/m_llist.c:746-749`, `M_llist_count`. -/
def count (l : L α) (eq : α → Bool) (fuel : Nat) : Option Nat :=
  (matchLoop eq false true l.head fuel l l.head 0).map (·.1)

/-- `base/list/m_llist.c:910-913`, `M_llist_remove_val`. -/
def removeVal (l : L α) (eq : α → Bool) (all : Bool) (fuel : Nat) : Option (Nat × L α) :=
  matchLoop eq true all l.head fuel l l.head 0

/-- The unsorted part of `base/list/m_llist.c:770-890`, `M_llist_find`. -/
def findLoop (eq : α → Bool) (first : Option Nat) (l : L α) : Nat → Option Nat → Option (Option Nat)
  | _, none => some none
  | 0, some _ => none
  | fuel + 1, some node => do
    let v ← l.val node
    if eq v then some (some node) else do
      let next ← getNext l node
      if next = first then some none else findLoop eq first l fuel next

def find (l : L α) (eq : α → Bool) (fuel : Nat) : Option (Option Nat) := findLoop eq l.head l fuel l.head

/-- Walking with `M_llist_first` / `M_llist_node_next` until NULL or the first node again (the idiom of
`base/list/m_llist.c:1022-1031`): the values met. -/
def walkLoop (first : Option Nat) (l : L α) : Nat → Option Nat → Option (List α)
  | _, none => some []
  | 0, some _ => none
  | fuel + 1, some node => do
    let v ← l.val node
    let next ← getNext l node
    if next = first then some [v] else (walkLoop first l fuel next).map (v :: ·)

def walk (l : L α) (fuel : Nat) : Option (List α) := walkLoop l.head l fuel l.head

/-- Walking with `M_llist_last` / `M_llist_node_prev`. -/
def walkBackLoop (last : Option Nat) (l : L α) : Nat → Option Nat → Option (List α)
  | _, none => some []
  | 0, some _ => none
  | fuel + 1, some node => do
    let v ← l.val node
    let prev ← getPrev l node
    if prev = last then some [v] else (walkBackLoop last l fuel prev).map (v :: ·)

def walkBack (l : L α) (fuel : Nat) : Option (List α) := walkBackLoop l.tail l fuel l.tail

/-- Inserting the values of a list one after the other: the loop of `base/list/m_llist.c:1004-1034`,
`M_llist_duplicate` and, with all duplicates included, of `M_llist_merge` (1049-1066). -/
def insertVals (l : L α) : List α → Option (L α)
  | [] => some l
  | v :: vs => (insert l v).bind fun r => insertVals r.2 vs

/-- `base/list/m_llist.c:1004-1034`, `M_llist_duplicate`. -/
def duplicate (l : L α) (fuel : Nat) : Option (L α) := (walk l fuel).bind fun vs => insertVals (create l.circular) vs

end Verif.LList
