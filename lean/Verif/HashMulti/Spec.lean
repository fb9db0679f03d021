import Verif.HashMulti.Model
/-! What a table of several types is: a map from keys to typed values, and the rule who releases pointers. -/
namespace Verif.HashMulti

/-- A value as the user put it in. -/
inductive Val
  | bool (b : Bool)
  | int (u : UInt64)
  | str (s : List UInt8)
  | bin (l : List UInt8)
  | vp (p : UInt64) (f : Option Nat)
deriving DecidableEq, Repr

/-- The map, the pointers that were released with their function, and those handed back to the user. -/
structure S where
  m : Key → Option Val
  freed : List (Nat × UInt64)
  handed : List (Nat × UInt64)

def S.init : S := ⟨fun _ => none, [], []⟩

/-- The pointer with a free function in a value. -/
def owned : Option Val → List (Nat × UInt64)
  | some (.vp p (some f)) => [(f, p)]
  | some (.vp _ none) => []
  | some (.bool _) => []
  | some (.int _) => []
  | some (.str _) => []
  | some (.bin _) => []
  | none => []

def S.set (s : S) (k : Key) (v : Val) : S :=
  { s with m := fun k' => if k' = k then some v else s.m k', freed := s.freed ++ owned (s.m k) }

def usable : Key → Prop
  | .int _ => True
  | .str s => s ≠ []

instance (k : Key) : Decidable (usable k) := by cases k <;> unfold usable <;> infer_instance

def sameKey (fold : List UInt8 → List UInt8) : Key → Key
  | .int k => .int k
  | .str s => .str (fold s)

/-- What a call means.  Storing under an empty string or storing a NULL pointer fails and changes nothing. -/
def S.step (fold : List UInt8 → List UInt8) (s : S) : Op → Bool × S
  | .bool k b => if usable (sameKey fold k) then (true, s.set (sameKey fold k) (.bool b)) else (false, s)
  | .int k u => if usable (sameKey fold k) then (true, s.set (sameKey fold k) (.int u)) else (false, s)
  | .str k v => if usable (sameKey fold k) then (true, s.set (sameKey fold k) (.str v)) else (false, s)
  | .bin k v => if usable (sameKey fold k) then (true, s.set (sameKey fold k) (.bin (v.getD []))) else (false, s)
  | .vp k p f => if p ≠ 0 ∧ usable (sameKey fold k) then (true, s.set (sameKey fold k) (.vp p f)) else (false, s)
  | .remove k d =>
    match s.m (sameKey fold k) with
    | none => (false, s)
    | some v =>
      (true, { m := fun k' => if k' = sameKey fold k then none else s.m k'
               freed := if d then s.freed ++ owned (some v) else s.freed
               handed := if d then s.handed else s.handed ++ owned (some v) })

def S.run (fold : List UInt8 → List UInt8) (ops : List Op) : S := ops.foldl (fun s o => (s.step fold o).2) S.init

/-- The pointers with free functions a history put into the table. -/
def given (fold : List UInt8 → List UInt8) (ops : List Op) : List (Nat × UInt64) :=
  ops.flatMap fun o => match o with
    | .vp k p (some f) => if p ≠ 0 ∧ usable (sameKey fold k) then [(f, p)] else []
    | _ => []

/-- Binary data is never NULL, and strings have no zero bytes (they are C strings). -/
def Proper : Op → Prop
  | .bin _ v => v ≠ none
  | .str _ s => 0 ∉ s
  | _ => True

/-- Storing binary data or a pointer under an empty key. -/
def wasted (fold : List UInt8 → List UInt8) : Op → Bool
  | .bin k (some _) => decide (¬ usable (sameKey fold k))
  | .vp k p _ => decide (p ≠ 0 ∧ ¬ usable (sameKey fold k))
  | _ => false

end Verif.HashMulti
