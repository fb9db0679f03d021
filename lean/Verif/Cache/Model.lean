import Verif.LList.Model
import Verif.Hash.Model
/- Model of `base/cache/m_cache.c` on top of the models of the linked list and the hashtable.  Keys and values are
pointers to objects of one type `P`; a NULL key is `none` at the API.  `none` as a result means that one of the two
containers misbehaved.  Freeing of keys and values is not modelled. -/
namespace Verif.Cache

open Verif

/-- The callbacks of `M_cache_create`: hash (seeded) and equality of keys, and the optional duplicate callbacks. -/
structure Callbacks (P : Type _) where
  hash : P → Nat
  cmp : P → P → Int
  keyDup : Option (P → P)
  valueDup : Option (P → P)

variable {P : Type _}

/-- `base/cache/m_cache.c:86-116`, `M_cache_create`: the parameters of the key table. -/
def cfg (cb : Callbacks P) : Hash.Cfg P Nat :=
  { cmp := cb.cmp, hash := cb.hash, vcmp := fun _ _ => 0, multi := false, multiSorted := false, getLast := false,
    ordered := false, keysSorted := false, fillpct := 75 }

/-- `base/cache/m_cache.c:30-44`: the table from key to node and the list of (key, value). -/
structure C (P : Type _) where
  table : Hash.HT P Nat
  list : LList.L (P × P)
  max : Nat

/-- `base/cache/m_cache.c:86-116`, `M_cache_create`. -/
def create (cb : Callbacks P) (max : Nat) : Option (C P) :=
  (Hash.create (cfg cb) 16).map fun h => { table := h, list := LList.create false, max := max }

/-- `key_duplicate(key)` or the key itself. -/
def dupKey (cb : Callbacks P) (key : P) : P := match cb.keyDup with
  | some f => f key
  | none => key

/-- What is stored as the value, `base/cache/m_cache.c:60-64` and 181-185: with a duplicate callback the code duplicates
`key`, not `value`.  (The NULL test of line 181 is not modelled.) -/
def dupValue (cb : Callbacks P) (key value : P) : P := match cb.valueDup with
  | some f => f key
  | none => value

/-- `cval->... = ...` on the object held by a live node. -/
def setVal (l : LList.L (P × P)) (n : Nat) (v : P × P) : Option (LList.L (P × P)) :=
  if (l.val n).isSome then some { l with val := LList.upd l.val n (some v) } else none

/-- `base/cache/m_cache.c:139-195`, `M_cache_insert`. -/
def insert (cb : Callbacks P) (c : C P) (key : Option P) (value : P) : Option (Bool × C P) :=
  match key with
  | none => some (false, c)
  | some key =>
    if c.max = 0 then some (false, c)
    else do
      let found ← Hash.get (cfg cb) c.table key
      let (bucket, c) ← match found with
        | none =>
          if c.list.elements = c.max then do
            let bucket ← c.list.tail
            let cval ← c.list.val bucket
            let (_, table) ← Hash.remove (cfg cb) c.table cval.1
            let list ← setVal c.list bucket (dupKey cb key, dupValue cb key value)
            let table ← Hash.insert (cfg cb) table (dupKey cb key) bucket
            some (bucket, { c with table := table, list := list })
          else do
            let (bucket, list) ← LList.insertFirst c.list (dupKey cb key, dupValue cb key value)
            let table ← Hash.insert (cfg cb) c.table (dupKey cb key) bucket
            some (bucket, { c with table := table, list := list })
        | some bucket => do
          let cval ← c.list.val bucket
          let list ← setVal c.list bucket (cval.1, dupValue cb key value)
          some (bucket, { c with list := list })
      let list ← LList.setFirst c.list bucket
      some (true, { c with list := list })

/-- `base/cache/m_cache.c:197-213`, `M_cache_remove`. -/
def remove (cb : Callbacks P) (c : C P) (key : Option P) : Option (Bool × C P) :=
  match key with
  | none => some (false, c)
  | some key => do
    let found ← Hash.get (cfg cb) c.table key
    match found with
    | none => some (false, c)
    | some bucket => do
      let (_, list) ← LList.takeNode c.list bucket
      let (_, table) ← Hash.remove (cfg cb) c.table key
      some (true, { c with table := table, list := list })

/-- `base/cache/m_cache.c:215-235`, `M_cache_get`: the value when the call returns M_TRUE. -/
def get (cb : Callbacks P) (c : C P) (key : Option P) : Option (Option P × C P) :=
  match key with
  | none => some (none, c)
  | some key => do
    let found ← Hash.get (cfg cb) c.table key
    match found with
    | none => some (none, c)
    | some bucket => do
      let list ← LList.setFirst c.list bucket
      let cval ← list.val bucket
      some (some cval.2, { c with list := list })

/-- `base/cache/m_cache.c:239-245`, `M_cache_size`. -/
def size (c : C P) : Nat := c.list.elements

/-- The loop of `base/cache/m_cache.c:255-272`, `M_cache_set_max_size`. -/
def shrinkLoop (cb : Callbacks P) (max : Nat) : Nat → C P → Option (C P)
  | 0, _ => none
  | fuel + 1, c =>
    if c.list.elements > max then do
      let bucket ← c.list.tail
      let (cval, list) ← LList.takeNode c.list bucket
      let (_, table) ← Hash.remove (cfg cb) c.table cval.1
      shrinkLoop cb max fuel { c with table := table, list := list }
    else some c

/-- `base/cache/m_cache.c:255-272`, `M_cache_set_max_size`. -/
def setMaxSize (cb : Callbacks P) (c : C P) (max : Nat) : Option (C P) :=
  (shrinkLoop cb max (c.list.elements + 1) c).map fun c => { c with max := max }

end Verif.Cache
