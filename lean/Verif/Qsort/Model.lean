import Verif.Cmp
/-
Model of `base/sort/m_sort_qsort.c`.  The C array is an `Array α` (the whole object), addresses are element
indexes into it; every read or write outside the array makes the result `none`.
Simplification: the three byte/word wise variants of `sort_swap` (lines 50-81) are one exchange of elements.
-/
namespace Verif.Qsort

variable {α : Type _}

/-- `base/sort/m_sort_qsort.c:50-74`, `sort_swap`. -/
def swap? (a : Array α) (i j : Nat) : Option (Array α) :=
  if h : i < a.size ∧ j < a.size then some (a.swap i j h.1 h.2) else none

/-- Call of the comparator on two elements of the array. -/
def cmpAt (cmp : α → α → Int) (a : Array α) (i j : Nat) : Option Int :=
  match a[i]?, a[j]? with
  | some x, some y => some (cmp x y)
  | _, _ => none

/-- `base/sort/m_sort_qsort.c:77-81`, `sort_swap_multiple`: element wise exchange of two blocks of `n` elements,
ascending. -/
def swapMultiple (a : Array α) (p q : Nat) : Nat → Option (Array α)
  | 0 => some a
  | n + 1 =>
    match swap? a p q with
    | none => none
    | some a' => swapMultiple a' (p + 1) (q + 1) n

/-- Inner loop of `M_sort_insertion`, `base/sort/m_sort_qsort.c:109-111`; the third argument is
`(ptr - base) / esize`. -/
def insertDown (cmp : α → α → Int) (a : Array α) (base : Nat) : Nat → Option (Array α)
  | 0 => some a
  | k + 1 =>
    match cmpAt cmp a (base + k) (base + k + 1) with
    | none => none
    | some c =>
      if c > 0 then
        match swap? a (base + k + 1) (base + k) with
        | none => none
        | some a' => insertDown cmp a' base k
      else some a

/-- Outer loop of `M_sort_insertion`, `base/sort/m_sort_qsort.c:108-112`. -/
def insertLoop (cmp : α → α → Int) (a : Array α) (base n i : Nat) : Option (Array α) :=
  if _h : i < n then
    match insertDown cmp a base i with
    | none => none
    | some a' => insertLoop cmp a' base n (i + 1)
  else some a
termination_by n - i

/-- `base/sort/m_sort_qsort.c:100-113`, `M_sort_insertion`. -/
def insertion (cmp : α → α → Int) (a : Array α) (base n : Nat) : Option (Array α) :=
  insertLoop cmp a base n 1

/-- `base/sort/m_sort_qsort.c:116-132`, `qsort_median`. -/
def median (cmp : α → α → Int) (a : Array α) (i j k : Nat) : Option Nat := do
  if (← cmpAt cmp a i j) < 0 then
    if (← cmpAt cmp a j k) < 0 then return j
    if (← cmpAt cmp a i k) < 0 then return k
    return i
  if (← cmpAt cmp a j k) > 0 then return j
  if (← cmpAt cmp a i k) < 0 then return i
  return k

/-- `base/sort/m_sort_qsort.c:135-158`, `qsort_choose_pivot`. -/
def choosePivot (cmp : α → α → Int) (a : Array α) (base n : Nat) : Option Nat := do
  let middle := base + n / 2
  if n > 7 then
    let left := base
    let right := base + (n - 1)
    if n > 40 then
      let s := n / 8
      let left' ← median cmp a left (left + s) (left + 2 * s)
      let middle' ← median cmp a (middle - s) middle (middle + s)
      let right' ← median cmp a (right - 2 * s) (right - s) right
      median cmp a left' middle' right'
    else median cmp a left middle right
  else return middle

/-- First inner loop of the partition, `base/sort/m_sort_qsort.c:201-207`.  Result: array, `left1`, `left2`. -/
def scanLeft (cmp : α → α → Int) (a : Array α) (base l1 l2 r1 : Nat) : Option (Array α × Nat × Nat) :=
  if _h : l2 ≤ r1 then
    match cmpAt cmp a l2 base with
    | none => none
    | some c =>
      if c ≤ 0 then
        if c = 0 then
          match swap? a l1 l2 with
          | none => none
          | some a' => scanLeft cmp a' base (l1 + 1) (l2 + 1) r1
        else scanLeft cmp a base l1 (l2 + 1) r1
      else some (a, l1, l2)
  else some (a, l1, l2)
termination_by r1 + 1 - l2

/-- Second inner loop of the partition, `base/sort/m_sort_qsort.c:208-214`.  Result: array, `right1`, `right2`.
A decrement below index 0 would form an address before the array: `none`. -/
def scanRight (cmp : α → α → Int) (a : Array α) (base l2 r1 r2 : Nat) : Option (Array α × Nat × Nat) :=
  if _h : l2 ≤ r1 then
    match cmpAt cmp a r1 base with
    | none => none
    | some c =>
      if c ≥ 0 then
        if _h0 : r1 = 0 ∨ r2 = 0 then none
        else if c = 0 then
          match swap? a r1 r2 with
          | none => none
          | some a' => scanRight cmp a' base l2 (r1 - 1) (r2 - 1)
        else scanRight cmp a base l2 (r1 - 1) r2
      else some (a, r1, r2)
  else some (a, r1, r2)
termination_by r1 + 1 - l2

/-- The partition loop, `base/sort/m_sort_qsort.c:200-220`.  Result: array, `left1`, `left2`, `right1`, `right2`.
`fuel` bounds the number of rounds; running out is `none` (an endless loop), which `qsort_correct` excludes. -/
def partition (cmp : α → α → Int) (base : Nat) : Nat → Array α → Nat → Nat → Nat → Nat →
    Option (Array α × Nat × Nat × Nat × Nat)
  | 0, _, _, _, _, _ => none
  | fuel + 1, a, l1, l2, r1, r2 =>
    match scanLeft cmp a base l1 l2 r1 with
    | none => none
    | some (a, l1, l2) =>
      match scanRight cmp a base l2 r1 r2 with
      | none => none
      | some (a, r1, r2) =>
        if l2 > r1 then some (a, l1, l2, r1, r2)
        else if r1 = 0 then none
        else
          match swap? a l2 r1 with
          | none => none
          | some a => partition cmp base fuel a l1 (l2 + 1) (r1 - 1) r2

/-- One pass of the outer loop up to the block exchanges, `base/sort/m_sort_qsort.c:189-243`.
Result: array, `left2 - left1`, `right2 - right1`. -/
def splitStep (cmp : α → α → Int) (a : Array α) (base n : Nat) : Option (Array α × Nat × Nat) :=
  match choosePivot cmp a base n with
  | none => none
  | some pivot =>
    match swap? a base pivot with
    | none => none
    | some a =>
      match partition cmp base n a (base + 1) (base + 1) (base + (n - 1)) (base + (n - 1)) with
      | none => none
      | some (a, l1, l2, r1, r2) =>
        let s := min (l1 - base) (l2 - l1)
        match swapMultiple a base (l2 - s) s with
        | none => none
        | some a =>
          let e := base + n
          let s := min (r2 - r1) (e - (r2 + 1))
          match swapMultiple a l2 (e - s) s with
          | none => none
          | some a => some (a, l2 - l1, r2 - r1)

/-- `base/sort/m_sort_qsort.c:161-260`, `M_sort_qsort` on the `n` elements starting at `base`: insertion sort below
seven elements, else partition, recurse on the left part (line 246), iterate on the right part (line 249-258, here a
second recursive call).  `fuel` bounds the recursion depth; running out is `none`. -/
def qsortF (cmp : α → α → Int) : Nat → Array α → Nat → Nat → Option (Array α)
  | 0, _, _, _ => none
  | fuel + 1, a, base, n =>
    if n < 7 then insertion cmp a base n
    else
      match splitStep cmp a base n with
      | none => none
      | some (a, l, r) =>
        match (if l > 1 then qsortF cmp fuel a base l else some a) with
        | none => none
        | some a => if r > 1 then qsortF cmp fuel a (base + n - r) r else some a

/-- `base/sort/m_sort_qsort.c:161-260`, `M_sort_qsort` called by a user on a whole array. -/
def qsort (cmp : α → α → Int) (a : Array α) : Option (Array α) :=
  qsortF cmp (a.size + 1) a 0 a.size

end Verif.Qsort
