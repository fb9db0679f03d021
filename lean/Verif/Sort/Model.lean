import Verif.Cmp
/-
Model of `base/sort/m_sort_mergesort.c` and `base/sort/m_sort_binary.c`.
Arrays are `List α`; an access outside the list makes the whole computation `none` (undefined behaviour).
-/
namespace Verif.Sort

variable {α : Type _}

/-- `base/sort/m_sort_mergesort.c:59-87`: the three merge loops.  The indexes `i`, `j`, `k` are represented by
what is left of the two temporary arrays and by the prefix already produced. -/
def merge (cmp : α → α → Int) : List α → List α → List α
  | [], r => r
  | l, [] => l
  | x :: l, y :: r =>
    if cmp x y ≤ 0 then x :: merge cmp l (y :: r) else y :: merge cmp (x :: l) r
termination_by l r => l.length + r.length

/-- `base/sort/m_sort_mergesort.c:42-48`: length of the left half. -/
def mergeLeftSize (n : Nat) : Nat :=
  if n > 2 ∧ n % 2 ≠ 0 then n / 2 + 1 else n / 2

/-- `base/sort/m_sort_mergesort.c:28-91`, `M_sort_mergesort`.  Simplification: the element size is abstracted,
an element is one value; `left`/`right` are the copies made at lines 51-54. -/
def mergesort (cmp : α → α → Int) (a : List α) : List α :=
  if h : a.length < 2 then a
  else
    let ls := mergeLeftSize a.length
    let rs := a.length / 2
    merge cmp (mergesort cmp (a.take ls)) (mergesort cmp ((a.drop ls).take rs))
termination_by a.length
decreasing_by
  · simp only [List.length_take, mergeLeftSize]; split <;> omega
  · simp only [List.length_take]; omega

/-- The halving loop, `base/sort/m_sort_binary.c:99-109`.  `left` stays non-negative, `right` may become -1.
Returns the final `(left, right, mid, eq)`; `none` when the array would be read outside its bounds. -/
def halve (cmp : α → α → Int) (a : List α) (key : α) (left : Nat) (right : Int) (mid : Nat) (eq : Int) :
    Option (Nat × Int × Nat × Int) :=
  if _h : (left : Int) ≤ right then
    let m := (left + right.toNat) / 2
    match a[m]? with
    | none => none
    | some x =>
      let e := cmp key x
      if e = 0 then some (left, right, m, e)
      else if e < 0 then halve cmp a key left ((m : Int) - 1) m e
      else halve cmp a key (m + 1) right m e
  else some (left, right, mid, eq)
termination_by (right + 1 - left).toNat
decreasing_by all_goals omega

/-- The backwards scan of a stable search, `base/sort/m_sort_binary.c:137-142`. -/
def scanBack (cmp : α → α → Int) (a : List α) (key : α) (left : Nat) : Nat → Option Nat
  | 0 => some 0
  | mid + 1 =>
    if mid + 1 ≥ left then
      match a[mid]? with
      | none => none
      | some x => if cmp key x ≠ 0 then some (mid + 1) else scanBack cmp a key left mid
    else some (mid + 1)

/-- The forward scan of a stable insertion, `base/sort/m_sort_binary.c:150-154`.  `(size_t)right` of a negative
`right` never happens here because `eq = 0` implies that the loop stopped with `left ≤ mid ≤ right`. -/
def scanFwd (cmp : α → α → Int) (a : List α) (key : α) (right : Nat) (mid : Nat) (eq : Int) : Option Nat :=
  if _h : mid < right ∧ eq = 0 then
    match a[mid + 1]? with
    | none => none
    | some x => scanFwd cmp a key right (mid + 1) (cmp key x)
  else some mid
termination_by right - mid

/-- `base/sort/m_sort_binary.c:28-158`, `M_sort_binary_idx` with non-NULL arguments.
The result is `(return value, *idx)`; `none` is an out of bounds read.  `*idx` starts as 0 (line 36). -/
def binaryIdx (cmp : α → α → Int) (a : List α) (key : α) (doMatch stable : Bool) : Option (Bool × Nat) :=
  let n := a.length
  if n = 0 then
    -- lines 42-50
    if doMatch then some (false, 0) else some (true, n)
  else
    -- lines 56-96: the shortcuts, only when not stable
    let short : Option (Option (Bool × Nat)) :=
      if stable then some none
      else
        match a[n - 1]? with
        | none => none
        | some last =>
          let eq := cmp key last
          if eq = 0 then some (some (true, if doMatch then n - 1 else n))
          else if eq > 0 then
            if doMatch then some (some (false, 0)) else some (some (true, n))
          else
            match a[0]? with
            | none => none
            | some first =>
              let eq := cmp key first
              if eq ≤ 0 then
                if eq ≠ 0 ∧ doMatch then some (some (false, 0)) else some (some (true, 0))
              else some none
    match short with
    | none => none
    | some (some r) => some r
    | some none =>
      match halve cmp a key 0 ((n : Int) - 1) 0 1 with
      | none => none
      | some (left, right, mid, eq) =>
        if !stable then
          -- lines 111-125
          if doMatch ∧ eq ≠ 0 then some (false, 0)
          else some (true, if eq > 0 then mid + 1 else mid)
        else if doMatch then
          -- lines 129-142
          if eq ≠ 0 then some (false, 0)
          else (scanBack cmp a key left mid).map fun i => (true, i)
        else
          -- lines 143-155
          let mid := if eq > 0 then mid + 1 else mid
          (scanFwd cmp a key right.toNat mid eq).map fun i => (true, i)

/-- `base/sort/m_sort_binary.c:161-171`, `M_sort_binary_insert_idx`. -/
def insertIdx (cmp : α → α → Int) (a : List α) (key : α) (stable : Bool) : Option Nat :=
  match binaryIdx cmp a key false stable with
  | none => none
  | some (ret, idx) => if ret then some idx else some a.length

/-- `base/sort/m_sort_binary.c:173-181`, `M_sort_binary_search`. -/
def search (cmp : α → α → Int) (a : List α) (key : α) (stable : Bool) : Option (Bool × Nat) :=
  binaryIdx cmp a key true stable

end Verif.Sort
