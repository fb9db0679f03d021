import Verif.Sort.Model
/-
Model of `base/hash/m_hashtable.c`.
A bucket together with its chain is a list: the head is the entry stored in the bucket array itself, the tail the
chained entries; an empty list is a bucket with a NULL key.  A result `none` is an access outside the bucket array.
Simplifications: the duplicate callbacks are the identity and the free callbacks do nothing (the defaults,
`m_hashtable.c:82-102`), keys are not NULL; the value list of a multi-value key (`M_list`) is a Lean list with the
operations proved for `M_list` in `Verif.MList` (append, or insertion at the binary search position when sorted);
the ordered key list (`M_llist`) is a Lean list; `num_keys`/`num_values` do not wrap.
-/
namespace Verif.Hash

/-- The creation parameters, `base/hash/m_hashtable.c:44-78`.  `hash` is `key_hash` with the seed applied. -/
structure Cfg (K V : Type _) where
  cmp : K → K → Int
  hash : K → Nat
  vcmp : V → V → Int
  multi : Bool
  multiSorted : Bool
  getLast : Bool
  ordered : Bool
  keysSorted : Bool
  fillpct : Nat

/-- `base/hash/m_hashtable.c:34-42`, a bucket entry; a single value is a list of length one. -/
abbrev Entry (K V : Type _) := K × List V

structure HT (K V : Type _) where
  size : Nat
  buckets : List (List (Entry K V))
  keys : List K
  numKeys : Nat
  numValues : Nat
  numCollisions : Nat
  numExpansions : Nat

variable {K V : Type _}

/-- `M_HASHTABLE_MAX_BUCKETS`, `include/mstdlib/base/m_hashtable.h:118`. -/
def maxBuckets : Nat := 2 ^ 24

/-- `M_size_t_round_up_to_power_of_two`: the least power of two not below `n`, modulo 2^64 (0 for n > 2^63); the bit
trick itself is modelled in `Verif.Bithacks`. -/
def roundUp (n : Nat) : Nat := (if n ≤ 1 then 1 else 2 ^ (Nat.log2 (n - 1) + 1)) % 2 ^ 64

/-- `base/hash/m_hashtable.c:104-187`, `M_hashtable_create`; `none` is NULL. -/
def create (c : Cfg K V) (size : Nat) : Option (HT K V) :=
  if size = 0 ∨ c.fillpct ≥ 100 then none
  else if (c.multiSorted ∨ c.getLast) ∧ ¬ c.multi then none
  else if c.keysSorted ∧ ¬ c.ordered then none
  else
    let r := roundUp size
    let n := if r > maxBuckets then maxBuckets else r
    some { size := n, buckets := List.replicate n [], keys := [], numKeys := 0, numValues := 0,
           numCollisions := 0, numExpansions := 0 }

/-- The macro HASH_IDX, `base/hash/m_hashtable.c:217`: 32-bit arithmetic. -/
def hashIdx (c : Cfg K V) (h : HT K V) (k : K) : Nat :=
  c.hash k % 2 ^ 32 &&& ((h.size + (2 ^ 32 - 1)) % 2 ^ 32)

/-- The chain walk of `base/hash/m_hashtable.c:196-211`, `M_hashtable_get_match`: position in the chain. -/
def getMatch (c : Cfg K V) (chain : List (Entry K V)) (k : K) : Option Nat :=
  chain.findIdx? fun e => decide (c.cmp e.1 k = 0)

/-- `M_list_insert` into the list of values, `base/hash/m_hashtable.c:341`. -/
def addVal (c : Cfg K V) (vals : List V) (v : V) : Option (List V) :=
  if c.multiSorted then (Sort.insertIdx c.vcmp vals v false).map fun i => vals.take i ++ v :: vals.drop i
  else some (vals ++ [v])

/-- `M_llist_insert` into the key list, `base/hash/m_hashtable.c:304`: at the end, or before the first greater key
(the skip list search; no key compares equal to another). -/
def addKey (c : Cfg K V) (keys : List K) (k : K) : List K :=
  if c.keysSorted then keys.takeWhile (fun x => decide (c.cmp x k ≤ 0)) ++ k :: keys.dropWhile (fun x => decide (c.cmp x k ≤ 0))
  else keys ++ [k]

/-- Linking a new entry: into the empty bucket, or chained right after the head,
`base/hash/m_hashtable.c:279-290`. -/
def link (chain : List (Entry K V)) (e : Entry K V) : List (Entry K V) :=
  match chain with
  | [] => [e]
  | hd :: tl => hd :: e :: tl

/-- `base/hash/m_hashtable.c:246-351`, `M_hashtable_insert_direct` without M_HASHTABLE_INSERT_REHASH.  The early
return when the very same pointer is stored again (line 328) leaves the table as the assignment would. -/
def insertDirect (c : Cfg K V) (h : HT K V) (k : K) (v : V) : Option (HT K V) :=
  let idx := hashIdx c h k
  match h.buckets[idx]? with
  | none => none
  | some chain =>
    match getMatch c chain k with
    | none =>
      some { h with
        numKeys := h.numKeys + 1
        numCollisions := if chain = [] then h.numCollisions else h.numCollisions + 1
        keys := if c.ordered then addKey c h.keys k else h.keys
        buckets := h.buckets.set idx (link chain (k, [v]))
        numValues := h.numValues + 1 }
    | some p =>
      match chain[p]? with
      | none => none
      | some e =>
        if c.multi then
          (addVal c e.2 v).map fun vals =>
            { h with buckets := h.buckets.set idx (chain.set p (e.1, vals)), numValues := h.numValues + 1 }
        else some { h with buckets := h.buckets.set idx (chain.set p (e.1, [v])) }

/-- `base/hash/m_hashtable.c:246-351`, `M_hashtable_insert_direct` with M_HASHTABLE_INSERT_REHASH: the whole value
(list) is moved and the counters of keys and values and the key list stay. -/
def insertRehash (c : Cfg K V) (h : HT K V) (e : Entry K V) : Option (HT K V) :=
  let idx := hashIdx c h e.1
  match h.buckets[idx]? with
  | none => none
  | some chain =>
    match getMatch c chain e.1 with
    | none =>
      some { h with
        numCollisions := if chain = [] then h.numCollisions else h.numCollisions + 1
        buckets := h.buckets.set idx (link chain e) }
    | some p =>
      match chain[p]? with
      | none => none
      | some e' => some { h with buckets := h.buckets.set idx (chain.set p (e'.1, e.2)) }

/-- The copying loops of `base/hash/m_hashtable.c:409-445`, bucket by bucket, head first. -/
def rehashLoop (c : Cfg K V) : List (Entry K V) → HT K V → Option (HT K V)
  | [], h => some h
  | e :: es, h =>
    match insertRehash c h e with
    | none => none
    | some h => rehashLoop c es h

/-- `base/hash/m_hashtable.c:379-452`, `M_hashtable_rehash_or_destroy` for rehashing. -/
def rehash (c : Cfg K V) (h : HT K V) : Option (HT K V) :=
  if h.size * 2 > maxBuckets then some h
  else
    rehashLoop c h.buckets.flatten
      { h with size := h.size * 2, numExpansions := h.numExpansions + 1, buckets := List.replicate (h.size * 2) [] }

/-- `base/hash/m_hashtable.c:464-467`, `M_hashtable_exceeds_load`. -/
def exceedsLoad (c : Cfg K V) (h : HT K V) : Bool :=
  c.fillpct ≠ 0 ∧ h.numKeys * 100 % 2 ^ 64 / h.size ≥ c.fillpct

/-- `base/hash/m_hashtable.c:488-493`, `M_hashtable_insert`. -/
def insert (c : Cfg K V) (h : HT K V) (k : K) (v : V) : Option (HT K V) :=
  match insertDirect c h k v with
  | none => none
  | some h => if exceedsLoad c h then rehash c h else some h

/-- The entry found for a key, lines 527-531, 617-621 and 646-650. -/
def entry? (c : Cfg K V) (h : HT K V) (k : K) : Option (Option (Entry K V)) :=
  match h.buckets[hashIdx c h k]? with
  | none => none
  | some chain =>
    match getMatch c chain k with
    | none => some none
    | some p => some chain[p]?

/-- `base/hash/m_hashtable.c:519-544`, `M_hashtable_get`; the inner `none` is M_FALSE. -/
def get (c : Cfg K V) (h : HT K V) (k : K) : Option (Option V) :=
  match entry? c h k with
  | none => none
  | some none => some none
  | some (some e) =>
    let idx := if c.multi && c.getLast then e.2.length - 1 else 0
    some e.2[idx]?

/-- Unlinking the entry at position `p`, `base/hash/m_hashtable.c:571-594`: the next entry is copied over it; a
lone head is zeroed; the last chained entry is cut off. -/
def unlink (chain : List (Entry K V)) (p : Nat) : List (Entry K V) :=
  match chain[p + 1]? with
  | some next => chain.take p ++ next :: chain.drop (p + 2)
  | none => if p = 0 then [] else chain.take p

/-- `base/hash/m_hashtable.c:547-598`, `M_hashtable_remove`. -/
def remove (c : Cfg K V) (h : HT K V) (k : K) : Option (Bool × HT K V) :=
  let idx := hashIdx c h k
  match h.buckets[idx]? with
  | none => none
  | some chain =>
    match getMatch c chain k with
    | none => some (false, h)
    | some p =>
      match chain[p]? with
      | none => none
      | some e =>
        some (true, { h with
          keys := if c.ordered then h.keys.eraseP (fun x => decide (c.cmp e.1 x = 0)) else h.keys
          buckets := h.buckets.set idx (unlink chain p)
          numKeys := h.numKeys - 1
          numValues := h.numValues - e.2.length })

/-- `base/hash/m_hashtable.c:609-637`, `M_hashtable_multi_len`; the inner `none` is M_FALSE. -/
def multiLen (c : Cfg K V) (h : HT K V) (k : K) : Option (Option Nat) :=
  if !c.multi then some none
  else (entry? c h k).map fun e => e.map fun e => e.2.length

/-- `base/hash/m_hashtable.c:640-655`, `M_hashtable_multi_get`; the inner `none` is M_FALSE. -/
def multiGet (c : Cfg K V) (h : HT K V) (k : K) (i : Nat) : Option (Option V) :=
  if !c.multi then some none
  else (entry? c h k).map fun e => e.bind fun e => e.2[i]?

/-- `base/hash/m_hashtable.c:658-690`, `M_hashtable_multi_remove`.  `num_values` is not adjusted when one of several
values goes. -/
def multiRemove (c : Cfg K V) (h : HT K V) (k : K) (i : Nat) : Option (Bool × HT K V) :=
  if !c.multi then some (false, h)
  else
    let idx := hashIdx c h k
    match h.buckets[idx]? with
    | none => none
    | some chain =>
      match getMatch c chain k with
      | none => some (false, h)
      | some p =>
        match chain[p]? with
        | none => none
        | some e =>
          if i ≥ e.2.length then some (false, h)
          else if e.2.length = 1 then remove c h k
          else some (true, { h with buckets := h.buckets.set idx (chain.set p (e.1, e.2.eraseIdx i)) })

/-- Enumeration state of an unordered table, `M_hashtable_enum_t`. -/
structure EnumU where
  hash : Nat
  chainid : Nat
  valueidx : Nat

/-- `base/hash/m_hashtable.c:741-818`, `M_hashtable_enumerate_next_unordered`.  The second argument is the number of
buckets left to look at (`size - i`).  Inner `none`: M_FALSE.  The value is NULL (`none`) when the list has none at that
index. -/
def enumNextU (c : Cfg K V) (h : HT K V) : Nat → EnumU → Option (Option ((K × Option V) × EnumU))
  | 0, _ => some none
  | n + 1, st =>
    match h.buckets[st.hash]? with
    | none => none
    | some chain =>
      match chain[st.chainid]? with
      | some e =>
        if c.multi then
          let v := e.2[st.valueidx]?
          if st.valueidx + 1 ≥ e.2.length then
            some (some ((e.1, v), { hash := st.hash, chainid := st.chainid + 1, valueidx := 0 }))
          else some (some ((e.1, v), { st with valueidx := st.valueidx + 1 }))
        else some (some ((e.1, e.2[0]?), { hash := st.hash, chainid := st.chainid + 1, valueidx := 0 }))
      | none => enumNextU c h n { st with hash := st.hash + 1, chainid := 0 }

/-- Calling `M_hashtable_enumerate_next` until it returns M_FALSE; `fuel` bounds the calls (`none` when it runs out). -/
def enumAllU (c : Cfg K V) (h : HT K V) : Nat → EnumU → Option (List (K × Option V))
  | 0, _ => none
  | fuel + 1, st =>
    match enumNextU c h (h.size - st.hash) st with
    | none => none
    | some none => some []
    | some (some (kv, st)) => (enumAllU c h fuel st).map (kv :: ·)

/-- `base/hash/m_hashtable.c:820-862`, `M_hashtable_enumerate_next_ordered`; the state is the rest of the key list
starting at `keynode` and `valueidx`. -/
def enumNextO (c : Cfg K V) (h : HT K V) (keys : List K) (valueidx : Nat) :
    Option (Option ((K × Option V) × List K × Nat)) :=
  match keys with
  | [] => some none
  | k :: ks =>
    if c.multi then
      match multiGet c h k valueidx with
      | none => none
      | some none => some none
      | some (some v) =>
        match multiLen c h k with
        | none => none
        | some none => some none
        | some (some n) =>
          if valueidx + 1 ≥ n then some (some ((k, some v), ks, 0))
          else some (some ((k, some v), k :: ks, valueidx + 1))
    else
      match get c h k with
      | none => none
      | some v => some (some ((k, v), ks, valueidx))

def enumAllO (c : Cfg K V) (h : HT K V) : Nat → List K → Nat → Option (List (K × Option V))
  | 0, _, _ => none
  | fuel + 1, keys, vi =>
    match enumNextO c h keys vi with
    | none => none
    | some none => some []
    | some (some (kv, keys, vi)) => (enumAllO c h fuel keys vi).map (kv :: ·)

/-- `base/hash/m_hashtable.c:729-739` and `864-874`: start an enumeration and run it to the end with at most `fuel`
calls.  Result: the announced number and the pairs. -/
def enumerate (c : Cfg K V) (h : HT K V) (fuel : Nat) : Option (Nat × List (K × Option V)) :=
  (if c.ordered then enumAllO c h fuel h.keys 0
   else enumAllU c h fuel { hash := 0, chainid := 0, valueidx := 0 }).map fun l => (h.numValues, l)

/-- The insertion loop of `M_hashtable_merge` (`base/hash/m_hashtable.c:912-944`) and of `M_hashtable_duplicate`
(lines 984-988): every enumerated pair is inserted.  The bookkeeping of key ownership in merge has no effect on the
destination.  A NULL value does not occur (`none`). -/
def insertAll (c : Cfg K V) : List (K × Option V) → HT K V → Option (HT K V)
  | [], h => some h
  | (k, some v) :: l, h =>
    match insert c h k v with
    | none => none
    | some h => insertAll c l h
  | (_, none) :: _, _ => none

/-- `base/hash/m_hashtable.c:877-958`, `M_hashtable_merge` with both tables non-NULL: the new destination. -/
def merge (c c' : Cfg K V) (dest src : HT K V) (fuel : Nat) : Option (HT K V) :=
  if src.numValues ≠ 0 then (enumerate c' src fuel).bind fun r => insertAll c r.2 dest
  else some dest

/-- `base/hash/m_hashtable.c:961-993`, `M_hashtable_duplicate`. -/
def duplicate (c : Cfg K V) (h : HT K V) (fuel : Nat) : Option (HT K V) :=
  (create c h.size).bind fun d =>
    if h.numValues ≠ 0 then (enumerate c h fuel).bind fun r => insertAll c r.2 d else some d

end Verif.Hash
