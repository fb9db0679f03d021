import Verif.Cmp
/-! Model of the sorted linked list of `base/list/m_llist.c`, a skip list.

Nodes are heap cells, as in `LList/Model.lean`: a cell is live when `cell` has an entry for it, and has an array of links for as
many levels as the entry says.  Every access to a dead cell or behind the end of an array makes the function return `none`, and so does
a loop that takes more steps than its first argument.  `fresh` is the next address of the allocator.  The callbacks `duplicate_*` and
`value_free` are the defaults (identity, no-op); `parent` and `equality_thunk` are not stored.  The values are pointers: `cmp` compares
what they point to, equality is that of the pointers. -/
namespace Verif.SkipList

/-- `base/list/m_llist.c:35-76`, `struct M_llist` with M_LLIST_SORTED and its nodes: for each node its value and its number of
levels, for each node and level the links. -/
structure S (α : Type _) where
  cell : Nat → Option (α × Nat)
  next : Nat → Nat → Option Nat
  prev : Nat → Nat → Option Nat
  head : Nat → Option Nat
  levels : Nat
  tail : Option Nat
  elements : Nat
  fresh : Nat

variable {α : Type _}

/-- Pointwise update. -/
def upd {β : Type _} (f : Nat → β) (i : Nat) (v : β) : Nat → β := fun j => if j = i then v else f j

/-- Update of the link of a node at a level. -/
def upd2 (f : Nat → Nat → Option Nat) (p i : Nat) (v : Option Nat) : Nat → Nat → Option Nat := fun q j => if q = p ∧ j = i then v else f q j

/-- `p->links.sorted.next[i]` can be accessed. -/
def valid (s : S α) (p i : Nat) : Bool :=
  match s.cell p with
  | none => false
  | some c => i < c.2

/-- `p->links.sorted.next[i]`. -/
def getNext (s : S α) (p i : Nat) : Option (Option Nat) := if valid s p i then some (s.next p i) else none
/-- `p->links.sorted.prev[i]`. -/
def getPrev (s : S α) (p i : Nat) : Option (Option Nat) := if valid s p i then some (s.prev p i) else none
/-- `p->links.sorted.next[i] = q`. -/
def setNext (s : S α) (p i : Nat) (q : Option Nat) : Option (S α) := if valid s p i then some { s with next := upd2 s.next p i q } else none
/-- `p->links.sorted.prev[i] = q`. -/
def setPrev (s : S α) (p i : Nat) (q : Option Nat) : Option (S α) := if valid s p i then some { s with prev := upd2 s.prev p i q } else none
/-- `d->head.sorted.head[i]`. -/
def getHead (s : S α) (i : Nat) : Option (Option Nat) := if i < s.levels then some (s.head i) else none
/-- `d->head.sorted.head[i] = q`. -/
def setHead (s : S α) (i : Nat) (q : Option Nat) : Option (S α) := if i < s.levels then some { s with head := upd s.head i q } else none
/-- `p->val`. -/
def getVal (s : S α) (p : Nat) : Option α := (s.cell p).map (·.1)

/-- `base/list/m_llist.c:493-525`, `M_llist_create` with M_LLIST_SORTED. -/
def create : S α :=
  { cell := fun _ => none, next := fun _ _ => none, prev := fun _ _ => none, head := fun _ => none, levels := 4, tail := none, elements := 0, fresh := 0 }

/-- `base/list/m_llist.c:119-138`, `M_llist_node_calc_level`.  `k` is the number of zero bits in front of the first one in the random
numbers.  The cap for the number of elements (108-116), which is at least four, is left out: with it there are fewer choices. -/
def calcLevel (s : S α) (k : Nat) : Nat := min (k + 1) (s.levels + 1)

/-- `base/list/m_llist.c:250-252`: go forward at level `i` while the next value is less. -/
def scan (cmp : α → α → Int) (s : S α) (v : α) (i : Nat) : Nat → Nat → Option Nat
  | 0, _ => none
  | fuel + 1, n1 =>
    (getNext s n1 i).bind fun nx =>
      match nx with
      | none => some n1
      | some q => (getVal s q).bind fun w => if cmp v w > 0 then scan cmp s v i fuel q else some n1

/-- `base/list/m_llist.c:237-245`: where to begin at level `i`. -/
def begin (cmp : α → α → Int) (s : S α) (v : α) (i : Nat) (n1 : Option Nat) : Option (Option Nat) :=
  match n1 with
  | some x => some (some x)
  | none =>
    (getHead s i).bind fun h =>
      match h with
      | none => some none
      | some x => (getVal s x).map fun w => if cmp w v > 0 then none else some x

/-- `base/list/m_llist.c:237-253`: the node behind which the new one goes at level `i`. -/
def place (cmp : α → α → Int) (s : S α) (v : α) (i : Nat) (n1 : Option Nat) : Option (Option Nat) :=
  (begin cmp s v i n1).bind fun n1 =>
    match n1 with
    | none => some none
    | some x => (scan cmp s v i (s.elements + 1) x).map some

/-- `base/list/m_llist.c:259-277`: chain the node in at level `i`. -/
def link (s : S α) (node i : Nat) (n1 : Option Nat) : Option (S α) :=
  (match n1 with
    | none => (getHead s i).bind fun h => (setNext s node i h).bind fun s => (setPrev s node i none).bind fun s => setHead s i (some node)
    | some x => (getNext s x i).bind fun nx => (setNext s node i nx).bind fun s => (setPrev s node i (some x)).bind fun s => setNext s x i (some node)).bind fun s =>
  (getNext s node i).bind fun nx =>
    match nx with
    | some q => setPrev s q i (some node)
    | none => if i = 0 then some { s with tail := some node } else some s

/-- `base/list/m_llist.c:236-278`: the loop over the levels, of which the first argument are left. -/
def insertLoop (cmp : α → α → Int) (node : Nat) (v : α) (lv : Nat) : Nat → Option Nat → S α → Option (S α)
  | 0, _, s => some s
  | i + 1, n1, s =>
    (place cmp s v i n1).bind fun n1 =>
      if i ≥ lv then insertLoop cmp node v lv i n1 s else (link s node i n1).bind fun s => insertLoop cmp node v lv i n1 s

/-- `base/list/m_llist.c:142-159`, `M_llist_node_create`, and 219-230: the new node with links that are all NULL, and the levels of
the head. -/
def prepare (s : S α) (v : α) (lv : Nat) : S α :=
  { s with
    cell := upd s.cell s.fresh (some (v, lv))
    next := fun p i => if p = s.fresh then none else s.next p i
    prev := fun p i => if p = s.fresh then none else s.prev p i
    head := fun i => if i < s.levels then s.head i else none
    levels := max s.levels lv
    fresh := s.fresh + 1 }

/-- `base/list/m_llist.c:576-587`, `M_llist_insert`, with `M_llist_insert_sorted` (213-289). -/
def insert (cmp : α → α → Int) (s : S α) (v : α) (k : Nat) : Option (Nat × S α) :=
  let node := s.fresh
  let s := prepare s v (calcLevel s k)
  (insertLoop cmp node v (((s.cell node).map (·.2)).getD 0) s.levels none s).map fun s => (node, { s with elements := s.elements + 1 })

/-- `base/list/m_llist.c:791-801`: the search at level `i`, the node to go on with and whether it matches. -/
def findScan (cmp : α → α → Int) (s : S α) (v : α) (i : Nat) : Nat → Nat → Option (Option Nat × Bool)
  | 0, _ => none
  | fuel + 1, node =>
    (getVal s node).bind fun w =>
      if cmp w v = 0 then some (some node, true)
      else if cmp w v > 0 then (getPrev s node i).map fun p => (p, false)
      else
        (getNext s node i).bind fun nx =>
          match nx with
          | none => some (none, false)
          | some q => findScan cmp s v i fuel q

/-- `base/list/m_llist.c:784-805`: the loop over the levels. -/
def findLoop (cmp : α → α → Int) (s : S α) (v : α) : Nat → Option Nat → Option (Option Nat)
  | 0, _ => some none
  | i + 1, node =>
    (match node with
      | some x => some (some x)
      | none => getHead s i).bind fun node =>
    match node with
    | none => findLoop cmp s v i none
    | some x => (findScan cmp s v i (s.elements + 1) x).bind fun r => if r.2 then some r.1 else findLoop cmp s v i r.1

/-- `base/list/m_llist.c:826-837`: go back to the first node that matches. -/
def findBack (cmp : α → α → Int) (s : S α) (v : α) : Nat → Nat → Option Nat
  | 0, _ => none
  | fuel + 1, node =>
    (getPrev s node 0).bind fun pv =>
      match pv with
      | none => some node
      | some p => (getVal s p).bind fun w => if cmp w v = 0 then findBack cmp s v fuel p else some node

/-- `base/list/m_llist.c:846-862`: go forward to the pointer. -/
def findPtr [DecidableEq α] (cmp : α → α → Int) (s : S α) (v : α) : Nat → Nat → Option (Option Nat)
  | 0, _ => none
  | fuel + 1, node =>
    (getVal s node).bind fun w =>
      if v = w then some (some node)
      else
        (getNext s node 0).bind fun nx =>
          match nx with
          | none => some none
          | some q => (getVal s q).bind fun w => if cmp w v = 0 then findPtr cmp s v fuel q else some none

/-- `base/list/m_llist.c:770-890`, `M_llist_find` of a sorted list; `ptr` is M_LLIST_MATCH_PTR. -/
def find [DecidableEq α] (cmp : α → α → Int) (s : S α) (v : α) (ptr : Bool) : Option (Option Nat) :=
  (findLoop cmp s v s.levels none).bind fun node =>
    match node with
    | none => some none
    | some x => (findBack cmp s v (s.elements + 1) x).bind fun x => if ptr then findPtr cmp s v (s.elements + 1) x else some (some x)

/-- `base/list/m_llist.c:450-463`: relink the neighbours at level `i`. -/
def unlinkAt (s : S α) (n i : Nat) : Option (S α) :=
  (getNext s n i).bind fun nx =>
  (match nx with
    | none => if i = 0 then (getPrev s n i).map fun p => { s with tail := p } else some s
    | some q => (getPrev s n i).bind fun p => setPrev s q i p).bind fun s =>
  (getPrev s n i).bind fun pv =>
  (getNext s n i).bind fun nx =>
    match pv with
    | none => setHead s i nx
    | some q => setNext s q i nx

/-- `base/list/m_llist.c:449-464`: the loop over the levels of the node. -/
def unlinkLoop (n : Nat) : Nat → S α → Option (S α)
  | 0, s => some s
  | i + 1, s => (unlinkAt s n i).bind (unlinkLoop n i)

/-- `base/list/m_llist.c:467-474`: the number of levels that are left. -/
def trim (head : Nat → Option Nat) : Nat → Nat
  | 0 => 0
  | 1 => 1
  | i + 2 => if head (i + 1) = none then trim head (i + 1) else i + 2

/-- `base/list/m_llist.c:430-489`, `M_llist_take_remove_node` on a sorted list, with `M_llist_node_destory` (161-182): the value and
the list. -/
def takeNode (s : S α) (n : Nat) : Option (α × S α) :=
  (s.cell n).bind fun c =>
    (unlinkLoop n c.2 s).map fun s =>
      (c.1, { s with
        levels := trim s.head s.levels
        cell := upd s.cell n none
        next := fun p i => if p = n then none else s.next p i
        prev := fun p i => if p = n then none else s.prev p i
        elements := s.elements - 1 })

/-- `base/list/m_llist.c:370-426`: the loop of `M_llist_match_op_val_int` for a sorted list: `remove` is the operation, `ptr` and `all`
the type of matching. -/
def matchLoop [DecidableEq α] (cmp : α → α → Int) (v : α) (ptr all remove : Bool) : Nat → S α → Option Nat → Nat → Option (Nat × S α)
  | _, s, none, cnt => some (cnt, s)
  | 0, _, some _, _ => none
  | fuel + 1, s, some node, cnt =>
    (getNext s node 0).bind fun next =>
    (getVal s node).bind fun w =>
      let valMatch : Bool := decide (cmp v w = 0)
      let isMatch : Bool := valMatch && (!ptr || decide (v = w))
      (if isMatch then (if remove then (takeNode s node).map fun r => (cnt + 1, r.2) else some (cnt + 1, s)) else some (cnt, s)).bind fun r =>
        if !valMatch then some r
        else if r.1 = 1 ∧ !all ∧ remove then some r
        else matchLoop cmp v ptr all remove fuel r.2 next r.1

/-- `base/list/m_llist.c:349-428`, `M_llist_match_op_val_int` of a sorted list: `M_llist_count` (746-749) and `M_llist_remove_val`
(910-913). -/
def matchOp [DecidableEq α] (cmp : α → α → Int) (s : S α) (v : α) (ptr all remove : Bool) : Option (Nat × S α) :=
  (find cmp s v ptr).bind fun node => matchLoop cmp v ptr all remove (s.elements + 1) s node 0

/-- `base/list/m_llist.c:934-962`: the inner loop of `M_llist_remove_duplicates` for a sorted list. -/
def dupInner [DecidableEq α] (cmp : α → α → Int) (n1 : Nat) (ptr : Bool) : Nat → S α → Option Nat → Option (S α)
  | _, s, none => some s
  | 0, _, some _ => none
  | fuel + 1, s, some n2 =>
    (getNext s n2 0).bind fun next =>
    (getVal s n1).bind fun v =>
    (getVal s n2).bind fun w =>
      let rm : Bool := if ptr then decide (v = w) else decide (cmp v w = 0)
      (if rm then (takeNode s n2).map (·.2) else some s).bind fun s =>
        if cmp v w ≠ 0 then some s else dupInner cmp n1 ptr fuel s next

/-- `base/list/m_llist.c:928-968`: the outer loop. -/
def dupOuter [DecidableEq α] (cmp : α → α → Int) (ptr : Bool) : Nat → S α → Option Nat → Option (S α)
  | _, s, none => some s
  | 0, _, some _ => none
  | fuel + 1, s, some n1 =>
    (getNext s n1 0).bind fun n2 =>
    (dupInner cmp n1 ptr (s.elements + 1) s n2).bind fun s =>
    (getNext s n1 0).bind fun next => dupOuter cmp ptr fuel s next

/-- `base/list/m_llist.c:915-969`, `M_llist_remove_duplicates` of a sorted list. -/
def removeDuplicates [DecidableEq α] (cmp : α → α → Int) (s : S α) (ptr : Bool) : Option (S α) :=
  (getHead s 0).bind fun h => dupOuter cmp ptr (s.elements + 1) s h

/-- Walking with `M_llist_first` and `M_llist_node_next` (`base/list/m_llist.c:753-761, 973-981`): the values met. -/
def walkLoop (s : S α) : Nat → Option Nat → Option (List α)
  | _, none => some []
  | 0, some _ => none
  | fuel + 1, some node => (getVal s node).bind fun v => (getNext s node 0).bind fun nx => (walkLoop s fuel nx).map (v :: ·)

/-- All of them. -/
def walk (s : S α) : Option (List α) := (getHead s 0).bind fun h => walkLoop s (s.elements + 1) h

/-- Walking with `M_llist_last` and `M_llist_node_prev` (`base/list/m_llist.c:763-768, 983-991`). -/
def backLoop (s : S α) : Nat → Option Nat → Option (List α)
  | _, none => some []
  | 0, some _ => none
  | fuel + 1, some node => (getVal s node).bind fun v => (getPrev s node 0).bind fun pv => (backLoop s fuel pv).map (v :: ·)

/-- All of them. -/
def walkBack (s : S α) : Option (List α) := backLoop s (s.elements + 1) s.tail

/-- `base/list/m_llist.c:1024-1031` and `1051-1068`: the values of another list are inserted one after the other, if `skip` only those
that are not found.  `ks` are the random numbers of the insertions. -/
def insertVals [DecidableEq α] (cmp : α → α → Int) (skip ptr : Bool) : List α → List Nat → S α → Option (S α)
  | [], _, s => some s
  | v :: vs, ks, s =>
    (if skip then find cmp s v ptr else some none).bind fun r =>
      if r.isSome then insertVals cmp skip ptr vs ks s
      else (insert cmp s v (ks.headD 0)).bind fun r => insertVals cmp skip ptr vs ks.tail r.2

/-- `base/list/m_llist.c:1004-1034`, `M_llist_duplicate` of a sorted list.  (The copy has no `equality_thunk`.) -/
def duplicate [DecidableEq α] (cmp : α → α → Int) (ks : List Nat) (s : S α) : Option (S α) :=
  (walk s).bind fun vs => insertVals cmp false false vs ks create

/-- `base/list/m_llist.c:1036-1071`, `M_llist_merge` of two sorted lists; what is left of `src` is destroyed. -/
def merge [DecidableEq α] (cmp : α → α → Int) (ks : List Nat) (dest src : S α) (dups ptr : Bool) : Option (S α) :=
  (walk src).bind fun vs => insertVals cmp (!dups) ptr vs ks dest

end Verif.SkipList
