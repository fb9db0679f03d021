/-! Model of `base/hash/m_hash_multi.c`: a table of values of several types under integer and string keys. -/
namespace Verif.HashMulti

/-- The contents of an object as it was copied in: a boolean, a 64 bit word (integer or pointer), or bytes.  Reading it back as
something else is undefined. -/
inductive Image
  | flag (b : Bool)
  | word (u : UInt64)
  | bytes (l : List UInt8)
deriving DecidableEq, Repr

/-- `include/mstdlib/base/m_hash_multi.h:58-65`, `M_hash_multi_val_type_t`. -/
inductive Ty
  | unknown | bool | int | str | bin | vp
deriving DecidableEq, Repr

/-- An object: type, size, data (`base/hash/m_hash_multi.c:31`). -/
structure Obj where
  ty : Ty
  len : Nat
  data : Image
deriving DecidableEq, Repr

/-- A key: the model keeps the tables for integer and string keys in one. -/
inductive Key
  | int (k : UInt64)
  | str (s : List UInt8)
deriving DecidableEq, Repr

/-- An entry of the tables of `struct M_hash_multi` (`base/hash/m_hash_multi.c:35-42`). -/
abbrev Assoc (α : Type) := List (Key × α)

/-- Looking up, storing and removing in `M_hash_u64vp_t` and `M_hash_strvp_t`; these are the subject of other properties. -/
def get {α : Type} (l : Assoc α) (k : Key) : Option α := (l.find? fun e => e.1 == k).map (·.2)
def del {α : Type} (l : Assoc α) (k : Key) : Assoc α := l.filter fun e => e.1 != k
def put {α : Type} (l : Assoc α) (k : Key) (v : α) : Assoc α := del l k ++ [(k, v)]

/-- `base/hash/m_hash_multi.c:35-42`, `struct M_hash_multi`: the values, where NULL is `none`, and the free functions.  Besides: calls of
free functions so far, objects allocated and released. -/
structure H where
  t : Assoc (Option Obj)
  d : Assoc Nat
  calls : List (Nat × UInt64)
  allocs : Nat
  frees : Nat
deriving DecidableEq, Repr

/-- `base/hash/m_hash_multi.c:227-243`, `M_hash_multi_create`. -/
def H.init : H := ⟨[], [], [], 0, 0⟩

/-- Keys of a table that compares without case are folded by the caller of the model; an empty string is no key
(`base/hash/m_hash_strvp.c:110`). -/
def Key.fold (f : List UInt8 → List UInt8) : Key → Key
  | .int k => .int k
  | .str s => .str (f s)

def Key.valid : Key → Bool
  | .int _ => true
  | .str s => !s.isEmpty

/-- `base/hash/m_hash_multi.c:54-77`, `M_hash_multi_val_type`. -/
def tyOf : Option Obj → Ty
  | none => .unknown
  | some o => o.ty

/-- `base/hash/m_hash_multi.c:79-95`, `M_hash_multi_create_object`. -/
def create (h : H) (ty : Ty) (val : Option Image) (len : Nat) : Option Obj × H :=
  match val with
  | none => (none, h)
  | some v => (some ⟨ty, len, v⟩, { h with allocs := h.allocs + 1 })

/-- `base/hash/m_hash_multi.c:122-198`, the functions that read an object: no, a value, or undefined. -/
inductive Res (α : Type)
  | no
  | yes (v : α)
  | ub
deriving DecidableEq, Repr

/-- `base/hash/m_hash_multi.c:122-134`. -/
def objBool : Option Obj → Res Bool
  | none => .no
  | some o => if o.ty ≠ .bool then .no else match o.data with
    | .flag b => .yes b
    | .word _ => .ub
    | .bytes _ => .ub

/-- `base/hash/m_hash_multi.c:136-148`. -/
def objInt : Option Obj → Res UInt64
  | none => .no
  | some o => if o.ty ≠ .int then .no else match o.data with
    | .word u => .yes u
    | .flag _ => .ub
    | .bytes _ => .ub

/-- `base/hash/m_hash_multi.c:150-162`: the bytes up to the terminator. -/
def objStr : Option Obj → Res (List UInt8)
  | none => .no
  | some o => if o.ty ≠ .str then .no else match o.data with
    | .bytes l => if 0 ∈ l then .yes (l.takeWhile (· != 0)) else .ub
    | .flag _ => .ub
    | .word _ => .ub

/-- `base/hash/m_hash_multi.c:164-184`, with both results asked for. -/
def objBin : Option Obj → Res (List UInt8)
  | none => .no
  | some o => if o.ty ≠ .bin then .no else match o.data with
    | .bytes l => if o.len ≤ l.length then .yes (l.take o.len) else .ub
    | .flag _ => .ub
    | .word _ => .ub

/-- `base/hash/m_hash_multi.c:186-198`. -/
def objVp : Option Obj → Res UInt64
  | none => .no
  | some o => if o.ty ≠ .vp then .no else match o.data with
    | .word u => .yes u
    | .flag _ => .ub
    | .bytes _ => .ub

/-- `base/hash/m_hash_multi.c:200-223`, `M_hash_multi_destroy_object`. -/
def destroyObj (h : H) (o : Option Obj) (f : Option Nat) : H :=
  match o with
  | none => h
  | some o =>
    let h := match o.ty, f, objVp (some o) with
      | .vp, some f, .yes p => { h with calls := h.calls ++ [(f, p)] }
      | _, _, _ => h
    { h with frees := h.frees + 1 }

/-- `base/hash/m_hash_multi.c:412-425`, `M_hash_multi_u64_remove`; `:572-585`, `M_hash_multi_str_remove`. -/
def remove (h : H) (k : Key) (destroy : Bool) : Bool × H :=
  match get h.t k with
  | none => (false, h)
  | some o =>
    let h := destroyObj h o (if destroy then get h.d k else none)
    (true, { h with d := del h.d k, t := del h.t k })

/-- `base/hash/m_hash_strvp.c:106-113`, `M_hash_strvp_insert`, and `M_hash_u64vp_insert` of a value. -/
def store (h : H) (k : Key) (o : Option Obj) : Bool × H :=
  if k.valid then (true, { h with t := put h.t k o }) else (false, h)

/-- `base/hash/m_hash_multi.c:282-289`; `:442-449`. -/
def insBool (h : H) (k : Key) (b : Bool) : Bool × H :=
  if !k.valid then (false, h)
  else
    let h := (remove h k true).2
    let c := create h .bool (some (.flag b)) 1
    store c.2 k c.1

/-- `base/hash/m_hash_multi.c:291-303`; `:451-463`; signed and unsigned integers are the same word. -/
def insInt (h : H) (k : Key) (u : UInt64) : Bool × H :=
  if !k.valid then (false, h)
  else
    let h := (remove h k true).2
    let c := create h .int (some (.word u)) 8
    store c.2 k c.1

/-- `base/hash/m_hash_multi.c:305-312`; `:465-472`: with the terminator; NULL is the empty string. -/
def insStr (h : H) (k : Key) (s : List UInt8) : Bool × H :=
  if !k.valid then (false, h)
  else
    let h := (remove h k true).2
    let c := create h .str (some (.bytes (s ++ [0]))) (s.length + 1)
    store c.2 k c.1

/-- `base/hash/m_hash_multi.c:314-321`; `:474-481`: no check of the key. -/
def insBin (h : H) (k : Key) (v : Option (List UInt8)) : Bool × H :=
  let h := (remove h k true).2
  let c := create h .bin (v.map .bytes) ((v.getD []).length)
  store c.2 k c.1

/-- `base/hash/m_hash_multi.c:323-336`; `:483-496`. -/
def insVp (h : H) (k : Key) (p : UInt64) (f : Option Nat) : Bool × H :=
  if p = 0 then (false, h)
  else
    let h := (remove h k true).2
    let c := create h .vp (some (.word p)) 8
    let s := store c.2 k c.1
    if s.1 then (true, match f with | none => s.2 | some f => { s.2 with d := put s.2.d k f }) else (false, s.2)

/-- `base/hash/m_hash_multi.c:340-408`; `:500-568`: the value under a key, read as some type. -/
def getAs {α : Type} (f : Option Obj → Res α) (h : H) (k : Key) : Res α :=
  match get h.t k with
  | none => .no
  | some o => f o

/-- `base/hash/m_hash_multi.c:427-438`; `:587-598`. -/
def typeOf (h : H) (k : Key) : Ty :=
  match get h.t k with
  | none => .unknown
  | some o => tyOf o

/-- `M_hash_multi_str_insert_str` (`base/hash/m_hash_multi.c:465-472`, `:305-312`) given the pointer that reading the string under `src`
returned (`:150-162`): the object under `dst` is released before the text is copied, so the pointer must still be good then.  `none` is
undefined behaviour. -/
def insAlias (h : H) (src dst : Key) : Option (Bool × H) :=
  match getAs objStr h src with
  | .no => some (false, h)
  | .ub => none
  | .yes s =>
    if !dst.valid then some (false, h)
    else if (get (remove h dst true).2.t src).isNone then none
    else some (insStr h dst s)

/-- `base/hash/m_hash_multi.c:245-278`, `M_hash_multi_destroy`: one object after the other, in the order of the table. -/
def destroy (h : H) : H :=
  h.t.foldl (fun h' e => destroyObj h' e.2 (get h.d e.1)) h

/-- What a program does to a table. -/
inductive Op
  | bool (k : Key) (b : Bool)
  | int (k : Key) (u : UInt64)
  | str (k : Key) (s : List UInt8)
  | bin (k : Key) (v : Option (List UInt8))
  | vp (k : Key) (p : UInt64) (f : Option Nat)
  | remove (k : Key) (destroy : Bool)
deriving DecidableEq, Repr

/-- One call and its answer; `fold` is what the comparison of string keys ignores. -/
def step (fold : List UInt8 → List UInt8) (h : H) : Op → Bool × H
  | .bool k b => insBool h (k.fold fold) b
  | .int k u => insInt h (k.fold fold) u
  | .str k s => insStr h (k.fold fold) s
  | .bin k v => insBin h (k.fold fold) v
  | .vp k p f => insVp h (k.fold fold) p f
  | .remove k d => remove h (k.fold fold) d

def run (fold : List UInt8 → List UInt8) (ops : List Op) : H := ops.foldl (fun h o => (step fold h o).2) H.init

end Verif.HashMulti
