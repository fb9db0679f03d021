import Verif.Sort.Model
import Verif.Qsort.Model
/-
Model of `base/list/m_list.c`.
The allocation is a function from slot numbers to contents; `none` is a slot that is NULL or was never written.
`start` is the slot number of `d->start`, `allocated` the number of slots.  A result `none` of an operation is
undefined behaviour (access outside the allocation, or handing an indeterminate slot to a callback).
Simplifications: callbacks `duplicate_*` are the identity and `value_free` does nothing (the defaults,
`m_list.c:50-78`); values are never NULL; the comparator ignores the thunk (the C code passes NULL in places);
`size_t` arithmetic on indexes wraps modulo 2^64 where the code can make it wrap.
-/
namespace Verif.MList

/-- `base/list/m_list.c:33-48`, `struct M_list`, with the bits of `flags` as booleans. -/
structure L (α : Type _) where
  mem : Nat → Option α
  start : Nat
  elements : Nat
  allocated : Nat
  stack : Bool
  sorted : Bool
  stable : Bool
  multi : Bool
  neverShrink : Bool
  setVal : Bool
  setPtr : Bool

variable {α : Type _}

/-- `size_t` subtraction. -/
def subW (a b : Nat) : Nat := (a + (2 ^ 64 - b % 2 ^ 64)) % 2 ^ 64

/-- `base/list/m_list.c:370-404`, `M_list_create` (INITIAL_SIZE is 4, line 30). -/
def create (stack sorted stable neverShrink setVal setPtr : Bool) : L α :=
  { mem := fun _ => none, start := 0, elements := 0, allocated := 4, stack := stack,
    sorted := sorted && !stack, stable := stable, multi := false, neverShrink := neverShrink,
    setVal := setVal, setPtr := setPtr }

/-- `base/list/m_list.c:82-93`, `M_list_convert_idx_at`. -/
def convertIdxAt (d : L α) (idx : Nat) : Nat :=
  if d.elements = 0 then 0
  else
    let idx := if idx > d.elements then d.elements - 1 else idx
    if !d.stack then idx
    else if d.elements - 1 = idx then 0
    else subW (subW d.elements idx) 1

/-- `base/list/m_list.c:95-105`, `M_list_convert_idx_insert`. -/
def convertIdxInsert (d : L α) (idx : Nat) : Nat :=
  if d.elements = 0 then 0
  else
    let n := convertIdxAt d idx
    if !d.stack then n else (n + 1) % 2 ^ 64

/-- `M_mem_move` of `n` slots within the allocation. -/
def memmove (d : L α) (dst src n : Nat) : Option (L α) :=
  if dst + n ≤ d.allocated ∧ src + n ≤ d.allocated then
    some { d with mem := fun i => if dst ≤ i ∧ i < dst + n then d.mem (i - dst + src) else d.mem i }
  else none

/-- `M_realloc` of the slot array: slots beyond the new size are lost. -/
def realloc (d : L α) (n : Nat) : L α :=
  { d with mem := fun i => if i < n then d.mem i else none, allocated := n, start := 0 }

/-- Store into a slot. -/
def write (d : L α) (i : Nat) (v : Option α) : Option (L α) :=
  if i < d.allocated then some { d with mem := fun j => if j = i then v else d.mem j } else none

/-- `base/list/m_list.c:107-126`, `M_list_shift_data`. -/
def shiftData (d : L α) (force : Bool) : Option (L α) :=
  let d := if d.elements = 0 then { d with start := 0 } else d
  if d.start ≠ 0 ∧ (force ∨ d.start + d.elements = d.allocated) then
    (memmove d 0 d.start d.elements).map fun d => { d with start := 0 }
  else some d

/-- `base/list/m_list.c:129-141`, `M_list_grow`. -/
def grow (d : L α) : Option (L α) :=
  (shiftData d false).map fun d =>
    if d.elements = d.allocated then realloc d (d.allocated * 2) else d

/-- `base/list/m_list.c:143-161`, `M_list_shrink`.  `(size_t)((double)r / 1.25)` is `r * 4 / 5` (exact for the
values below 2^51 an allocation can have). -/
def shrink (d : L α) : Option (L α) :=
  if d.neverShrink then some d
  else
    let reduced := d.allocated / 2
    if reduced ≥ 4 ∧ d.elements ≤ reduced * 4 / 5 then
      (shiftData d true).map fun d => realloc d reduced
    else some d

/-- Read `n` slots from slot `i` on; `none` when one is outside the allocation or indeterminate. -/
def readN (d : L α) (i : Nat) : Nat → Option (List α)
  | 0 => some []
  | n + 1 =>
    if i < d.allocated then
      match d.mem i with
      | none => none
      | some x => (readN d (i + 1) n).map (x :: ·)
    else none

/-- The array `d->start[0 .. elements)` as handed to the sort and search functions. -/
def contents (d : L α) : Option (List α) := readN d d.start d.elements

/-- First index from `i` on whose element satisfies the test (loops at `m_list.c:570-579` and `603-615`). -/
def scanUp (p : α → Bool) (i : Nat) : List α → Option Nat
  | [] => none
  | x :: l => if p x then some i else scanUp p (i + 1) l

/-- `base/list/m_list.c:569-593`: look for the pointer among the neighbours comparing equal, upwards. -/
def ptrUp [DecidableEq α] (cmp : α → α → Int) (v : α) (i : Nat) : List α → Option Nat
  | [] => none
  | x :: l => if cmp v x ≠ 0 then none else if v = x then some i else ptrUp cmp v (i + 1) l

/-- `base/list/m_list.c:541-617`, `M_list_index_of`; `ptr` is M_LIST_MATCH_PTR.  Result `none` inside: not found. -/
def indexOf [DecidableEq α] (cmp : α → α → Int) (d : L α) (v : α) (ptr : Bool) : Option (Option Nat) :=
  if d.elements = 0 then some none
  else
    match contents d with
    | none => none
    | some l =>
      if d.sorted && !d.multi then
        match Sort.search cmp l v d.stable with
        | none => none
        | some (false, _) => some none
        | some (true, idx) =>
          let r :=
            if !ptr then some idx
            else
              match l[idx]? with
              | none => none
              | some x =>
                if v = x then some idx
                else
                  match ptrUp cmp v (idx + 1) (l.drop (idx + 1)) with
                  | some i => some i
                  | none => (ptrUp cmp v 0 ((l.take idx).reverse)).map fun k => idx - 1 - k
          some (r.map (convertIdxAt d))
      else
        some ((scanUp (fun x => if ptr then decide (v = x) else decide (cmp v x = 0)) 0 l).map (convertIdxAt d))

/-- `base/list/m_list.c:175-202`: the part of `M_list_insert_at_int` after the set check. -/
def insertRaw (d : L α) (v : α) (idx : Nat) : Option (L α) :=
  match grow d with
  | none => none
  | some d =>
    let r : Option (L α × Nat) :=
      if idx > d.elements then some (d, d.elements)
      else if idx < d.elements then
        if idx = 0 ∧ d.start > 0 then some ({ d with start := d.start - 1 }, idx)
        else (memmove d (d.start + (idx + 1)) (d.start + idx) (d.elements - idx)).map fun d => (d, idx)
      else some (d, idx)
    match r with
    | none => none
    | some (d, idx) => (write d (d.start + idx) (some v)).map fun d => { d with elements := d.elements + 1 }

/-- `base/list/m_list.c:164-203`, `M_list_insert_at_int` (with the set check). -/
def insertAtInt [DecidableEq α] (cmp : α → α → Int) (d : L α) (v : α) (idx : Nat) : Option (Bool × L α) :=
  if d.setVal || d.setPtr then
    match indexOf cmp d v d.setPtr with
    | none => none
    | some (some _) => some (false, d)
    | some none => (insertRaw d v idx).map fun d => (true, d)
  else (insertRaw d v idx).map fun d => (true, d)

/-- `base/list/m_list.c:472-490`, `M_list_insert_idx`. -/
def insertIdx (cmp : α → α → Int) (d : L α) (v : α) : Option Nat :=
  if d.sorted && !d.multi then
    match contents d with
    | none => none
    | some l => (Sort.insertIdx cmp l v d.stable).map (convertIdxInsert d)
  else some (convertIdxInsert d d.elements)

/-- `base/list/m_list.c:464-470`, `M_list_insert`. -/
def insert [DecidableEq α] (cmp : α → α → Int) (d : L α) (v : α) : Option (Bool × L α) :=
  match insertIdx cmp d v with
  | none => none
  | some i => insertAtInt cmp d v (convertIdxInsert d i)

/-- `base/list/m_list.c:492-501`, `M_list_insert_at`. -/
def insertAt [DecidableEq α] (cmp : α → α → Int) (d : L α) (v : α) (idx : Nat) : Option (Bool × L α) :=
  if d.sorted && !d.multi then some (false, d)
  else insertAtInt cmp d v (convertIdxAt d idx)

/-- `base/list/m_list.c:503-509`, `M_list_insert_begin`. -/
def insertBegin (d : L α) : L α := { d with multi := true }

/-- Overwrite the elements (result of sorting in place). -/
def store (d : L α) (l : List α) : L α :=
  { d with mem := fun i => if d.start ≤ i ∧ i < d.start + d.elements then l[i - d.start]? else d.mem i }

/-- The in place sort done by `M_list_insert_end` (lines 516-522) and `M_list_change_sorting` (lines 453-459). -/
def sortNow (cmp : α → α → Int) (d : L α) : Option (L α) :=
  if d.sorted && d.elements ≠ 0 then
    match contents d with
    | none => none
    | some l =>
      if d.stable then some (store d (Sort.mergesort cmp l))
      else (Qsort.qsort cmp l.toArray).map fun a => store d a.toList
  else some d

/-- `base/list/m_list.c:511-524`, `M_list_insert_end`. -/
def insertEnd (cmp : α → α → Int) (d : L α) : Option (L α) :=
  if !d.multi then some d
  else (sortNow cmp d).map fun d => { d with multi := false }

/-- `base/list/m_list.c:633-638`, `M_list_at`; the inner `none` is NULL. -/
def at' (d : L α) (idx : Nat) : Option (Option α) :=
  if idx ≥ d.elements then some none
  else
    let i := d.start + convertIdxAt d idx
    if i < d.allocated then
      match d.mem i with
      | none => none
      | some x => some (some x)
    else none

/-- `base/list/m_list.c:619-624`, `M_list_first`. -/
def first (d : L α) : Option (Option α) := if d.elements = 0 then some none else at' d 0

/-- `base/list/m_list.c:626-631`, `M_list_last`. -/
def last (d : L α) : Option (Option α) := if d.elements = 0 then some none else at' d (d.elements - 1)

/-- `base/list/m_list.c:654-679`, `M_list_take_at`. -/
def takeAt (d : L α) (idx : Nat) : Option (Option α × L α) :=
  if idx ≥ d.elements then some (none, d)
  else
    let idx := convertIdxAt d idx
    if d.start + idx < d.allocated then
      match d.mem (d.start + idx) with
      | none => none
      | some v =>
        match write d (d.start + idx) none with
        | none => none
        | some d =>
          let r : Option (L α) :=
            if idx = 0 then some { d with start := d.start + 1 }
            else if idx ≠ d.elements - 1 then
              memmove d (d.start + idx) (d.start + (idx + 1)) (d.elements - idx - 1)
            else some d
          r.bind fun d => (shrink { d with elements := d.elements - 1 }).map fun d => (some v, d)
    else none

/-- `base/list/m_list.c:640-645`, `M_list_take_first`. -/
def takeFirst (d : L α) : Option (Option α × L α) := if d.elements = 0 then some (none, d) else takeAt d 0

/-- `base/list/m_list.c:647-652`, `M_list_take_last`. -/
def takeLast (d : L α) : Option (Option α × L α) :=
  if d.elements = 0 then some (none, d) else takeAt d (d.elements - 1)

/-- `M_mem_set(d->start+s, 0, n slots)`. -/
def clear (d : L α) (s n : Nat) : Option (L α) :=
  if s + n ≤ d.allocated then
    some { d with mem := fun i => if s ≤ i ∧ i < s + n then none else d.mem i }
  else none

/-- `base/list/m_list.c:708-748`, `M_list_remove_range`.  The loop at 728-730 passes every slot of the range to
`value_free`, so it must be readable. -/
def removeRange (d : L α) (s e : Nat) : Option (Bool × L α) :=
  if s > e ∨ s ≥ d.elements then some (false, d)
  else
    let s := convertIdxAt d s
    let e := convertIdxAt d e
    let e := if e ≥ d.elements then d.elements - 1 else e
    let toEnd := e = d.elements - 1
    match readN d (d.start + s) (e + 1 - s) with
    | none => none
    | some _ =>
      let n := subW (e + 1) s
      match clear d (d.start + s) n with
      | none => none
      | some d =>
        let d := { d with elements := subW d.elements n }
        let r : Option (L α) :=
          if d.elements > 0 then
            if s = 0 then some { d with start := d.start + (e + 1) }
            else if !toEnd then memmove d (d.start + s) (d.start + (e + 1)) (d.elements - s)
            else some d
          else some d
        r.bind fun d => (shrink d).map fun d => (true, d)

/-- `base/list/m_list.c:695-701`, `M_list_remove_at`. -/
def removeAt (d : L α) (idx : Nat) : Option (Bool × L α) :=
  if idx ≥ d.elements then some (false, d) else removeRange d idx idx

/-- `base/list/m_list.c:681-686`, `M_list_remove_first`. -/
def removeFirst (d : L α) : Option (Bool × L α) := if d.elements = 0 then some (false, d) else removeAt d 0

/-- `base/list/m_list.c:688-693`, `M_list_remove_last`. -/
def removeLast (d : L α) : Option (Bool × L α) :=
  if d.elements = 0 then some (false, d) else removeAt d (d.elements - 1)

/-- `base/list/m_list.c:803-814`, `M_list_replace_at`. -/
def replaceAt (d : L α) (v : α) (idx : Nat) : Option (Bool × L α) :=
  if idx ≥ d.elements ∨ (d.sorted ∧ ¬ d.multi) then some (false, d)
  else (write d (d.start + convertIdxAt d idx) (some v)).map fun d => (true, d)

/-- `base/list/m_list.c:816-828`, `M_list_swap`.  Copying an indeterminate slot is allowed, leaving the
allocation is not. -/
def swap (d : L α) (i j : Nat) : Option (Bool × L α) :=
  if d.elements = 0 ∨ d.sorted ∨ i = j ∨ i > d.elements ∨ j > d.elements then some (false, d)
  else if d.start + i < d.allocated ∧ d.start + j < d.allocated then
    some (true, { d with mem := fun k =>
      if k = d.start + i then d.mem (d.start + j)
      else if k = d.start + j then d.mem (d.start + i) else d.mem k })
  else none

/-- Equality test of `M_list_match_op_val_int` and `M_list_remove_duplicates`. -/
def matches' [DecidableEq α] (cmp : α → α → Int) (ptr : Bool) (v x : α) : Bool :=
  if ptr then decide (v = x) else decide (cmp v x = 0)

/-- The unsorted loop of `M_list_match_op_val_int` for M_LIST_MATCH_OP_REMOVE, `base/list/m_list.c:342-363`;
the last argument counts down `i`.  Result: `cnt` and the list. -/
def removeLoop [DecidableEq α] (cmp : α → α → Int) (ptr all : Bool) (v : α) :
    Nat → Nat → L α → Option (Nat × L α)
  | 0, cnt, d => some (cnt, d)
  | i + 1, cnt, d =>
    if d.start + i < d.allocated then
      match d.mem (d.start + i) with
      | none => none
      | some x =>
        if matches' cmp ptr v x then
          match removeAt d i with
          | none => none
          | some (_, d) => if cnt = 0 ∧ !all then some (1, d) else removeLoop cmp ptr all v i (cnt + 1) d
        else removeLoop cmp ptr all v i cnt d
    else none

/-- Loop "matches after" for values, `base/list/m_list.c:270-285`: last index of the run of equal elements. -/
def runUp (cmp : α → α → Int) (v : α) (i : Nat) : List α → Nat
  | [] => i
  | x :: l => if cmp v x ≠ 0 then i else runUp cmp v (i + 1) l

/-- `base/list/m_list.c:210-366` for M_LIST_MATCH_OP_REMOVE with M_LIST_MATCH_VAL (with or without
M_LIST_MATCH_ALL), i.e. `M_list_remove_val` by value. -/
def removeVal [DecidableEq α] (cmp : α → α → Int) (d : L α) (v : α) (all : Bool) : Option (Nat × L α) :=
  if d.elements = 0 then some (0, d)
  else if d.sorted && !d.multi then
    match indexOf cmp d v false with
    | none => none
    | some none => some (0, d)
    | some (some idx) =>
      match contents d with
      | none => none
      | some l =>
        let e := if all then runUp cmp v idx (l.drop (idx + 1)) else idx
        let s := if all then idx - runUp cmp v 0 ((l.take idx).reverse) else idx
        (removeRange d s e).map fun (_, d) => (1 + (e - s), d)
  else removeLoop cmp false all v d.elements 0 d

/-- Loop "matches after" when matching pointers, `base/list/m_list.c:270-285`: removing as it goes. -/
def ptrRemoveUp [DecidableEq α] (cmp : α → α → Int) (v : α) : Nat → Nat → Nat → L α → Option (Nat × L α)
  | 0, _, _, _ => none
  | fuel + 1, i, cnt, d =>
    if i < d.elements then
      if d.start + i < d.allocated then
        match d.mem (d.start + i) with
        | none => none
        | some x =>
          if cmp v x ≠ 0 then some (cnt, d)
          else if v = x then
            match removeAt d i with
            | none => none
            | some (_, d) => ptrRemoveUp cmp v fuel i (cnt + 1) d
          else ptrRemoveUp cmp v fuel (i + 1) cnt d
      else none
    else some (cnt, d)

/-- Loop "matches before" when matching pointers, `base/list/m_list.c:287-301`. -/
def ptrRemoveDown [DecidableEq α] (cmp : α → α → Int) (v : α) : Nat → Nat → L α → Option (Nat × L α)
  | 0, cnt, d => some (cnt, d)
  | i + 1, cnt, d =>
    if d.start + i < d.allocated then
      match d.mem (d.start + i) with
      | none => none
      | some x =>
        if cmp v x ≠ 0 then some (cnt, d)
        else if v = x then
          match removeAt d i with
          | none => none
          | some (_, d) => ptrRemoveDown cmp v i (cnt + 1) d
        else ptrRemoveDown cmp v i cnt d
    else none

/-- `M_list_remove_val` with M_LIST_MATCH_PTR|M_LIST_MATCH_ALL, `base/list/m_list.c:210-366`. -/
def removePtrAll [DecidableEq α] (cmp : α → α → Int) (d : L α) (v : α) : Option (Nat × L α) :=
  if d.elements = 0 then some (0, d)
  else if d.sorted && !d.multi then
    match indexOf cmp d v true with
    | none => none
    | some none => some (0, d)
    | some (some idx) =>
      match ptrRemoveUp cmp v (2 * d.elements) (idx + 1) 1 d with
      | none => none
      | some (cnt, d) =>
        match ptrRemoveDown cmp v idx cnt d with
        | none => none
        | some (cnt, d) => (removeRange d idx idx).map fun (_, d) => (cnt, d)
  else removeLoop cmp true true v d.elements 0 d

/-- `M_list_count` by value, `base/list/m_list.c:536-539` and `210-366` with M_LIST_MATCH_OP_COUNT. -/
def count [DecidableEq α] (cmp : α → α → Int) (d : L α) (v : α) : Option Nat :=
  if d.elements = 0 then some 0
  else
    match contents d with
    | none => none
    | some l =>
      if d.sorted && !d.multi then
        match indexOf cmp d v false with
        | none => none
        | some none => some 0
        | some (some idx) =>
          some (1 + (runUp cmp v idx (l.drop (idx + 1)) - (idx - runUp cmp v 0 ((l.take idx).reverse))))
      else some (l.countP fun x => decide (cmp v x = 0))

/-- Inner loop of `M_list_remove_duplicates` on an unsorted list, `base/list/m_list.c:785-793`.
`fuel` bounds the iterations; running out is `none`. -/
def dedupInner [DecidableEq α] (cmp : α → α → Int) (ptr : Bool) (i : Nat) : Nat → Nat → L α → Option (L α)
  | 0, _, _ => none
  | fuel + 1, j, d =>
    if j < d.elements then
      if d.start + i < d.allocated ∧ d.start + j < d.allocated then
        match d.mem (d.start + i), d.mem (d.start + j) with
        | some x, some y =>
          if matches' cmp ptr x y then
            match removeAt d (convertIdxAt d j) with
            | none => none
            | some (_, d) => dedupInner cmp ptr i fuel j d
          else dedupInner cmp ptr i fuel (j + 1) d
        | _, _ => none
      else none
    else some d

/-- Outer loop on an unsorted list, `base/list/m_list.c:784-794`. -/
def dedupOuter [DecidableEq α] (cmp : α → α → Int) (ptr : Bool) : Nat → Nat → L α → Option (L α)
  | 0, _, _ => none
  | fuel + 1, i, d =>
    if i < d.elements then
      match dedupInner cmp ptr i (d.elements + 1) (i + 1) d with
      | none => none
      | some d => dedupOuter cmp ptr fuel (i + 1) d
    else some d

/-- Outer loop on a sorted list matching values, `base/list/m_list.c:761-780`. -/
def dedupSorted (cmp : α → α → Int) : Nat → Nat → L α → Option (L α)
  | 0, _, _ => none
  | fuel + 1, i, d =>
    if i < d.elements then
      match contents d with
      | none => none
      | some l =>
        match l[i]? with
        | none => none
        | some x =>
          -- lines 774-775: `j` is the first index after `i` with a different value
          let j := runUp cmp x (i + 1) (l.drop (i + 1))
          match removeRange d (convertIdxAt d (i + 1)) (convertIdxAt d j) with
          | none => none
          | some (_, d) => dedupSorted cmp fuel (i + 1) d
    else some d

/-- `base/list/m_list.c:750-796`, `M_list_remove_duplicates`; matching pointers on a sorted list (lines 762-771) is
not modelled. -/
def removeDuplicates [DecidableEq α] (cmp : α → α → Int) (d : L α) (ptr : Bool) : Option (L α) :=
  if d.sorted && !d.multi then dedupSorted cmp (d.elements + 1) 0 d
  else dedupOuter cmp ptr (d.elements + 1) 0 d

end Verif.MList
