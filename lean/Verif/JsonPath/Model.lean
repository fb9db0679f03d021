import Verif.Json.Model
import Verif.Str.Model
import Verif.Num.Model

/-!
# Searching a JSON document

Model of formats/json/m_json_jsonpath.c, on top of the models of JSON values (`Verif.Json`), of
splitting strings (`Verif.Str`) and of reading integers (`Verif.Num`).

A match, in the code a pointer to a node, is here the way from the node searched to it: the
positions of the members and elements on the way.  Simplified: arrays have fewer than 2^31
elements, so that the casts in base code do not change their length; memory for the list of
matches is always there.
-/

namespace Verif.JsonPath

open Verif.Json (Json)

/-- A way from a node down to another. -/
abbrev Path := List Nat

/-- One segment of a search expression. -/
abbrev Seg := List UInt8

/-- `M_str_to_int32_ex` as it is called in formats/json/m_json_jsonpath.c:40 and
formats/json/m_json_jsonpath.c:123: bytes after the number are not looked at.  Simplified: the
outcome of a read outside the text (excluded in `Verif.Num`) counts as a failure. -/
def readNum (t : List UInt8) : Option Int :=
  match Num.toInt32Ex (t ++ [0]) t.length 10 with
  | some (.success, some (v, _)) => some v
  | _ => none

/-- `M_json_jsonpath_search_array_offset_val` (formats/json/m_json_jsonpath.c:35-54). -/
def offsetVal (t : List UInt8) (len : Nat) : Option Nat :=
  match readNum t with
  | none => none
  | some v =>
    if v < 0 then
      if (len : Int) + v < 0 then none else some ((len : Int) + v).toNat
    else some v.toNat

/-- Counting up (formats/json/m_json_jsonpath.c:139-143).  The first argument bounds the number of
rounds; `e` rounds are always enough, the step being at least 1. -/
def up (len e step : Nat) : Nat → Nat → List Nat
  | 0, _ => []
  | n + 1, j =>
    if j < e then (if j < len then [j] else []) ++ up len e step n (j + step) else []

/-- Counting down (formats/json/m_json_jsonpath.c:146-150), `step` being the amount to go down
each time. -/
def down (len e step : Nat) : Nat → Int → List Nat
  | 0, _ => []
  | n + 1, j =>
    if (e : Int) ≤ j then
      (if 0 ≤ j ∧ j < len then [j.toNat] else []) ++ down len e step n (j - step)
    else []

/-- The offsets of a slice whose three numbers are known
(formats/json/m_json_jsonpath.c:128-151). -/
def slice (len start stop : Nat) (step : Int) : List Nat :=
  if start = stop ∨ (start > stop ∧ step > 0) ∨ (start < stop ∧ step < 0) then []
  else if start < stop then up len stop step.toNat stop start
  else down len stop (-step).toNat start ((start : Int) - 1)

/-- A number that may be left out (formats/json/m_json_jsonpath.c:110-120). -/
def optVal (t : List UInt8) (len dflt : Nat) : Option Nat :=
  if t.length > 0 then offsetVal t len else some dflt

/-- The step (formats/json/m_json_jsonpath.c:122-126). -/
def stepVal (t : Option (List UInt8)) : Option Int :=
  match t with
  | none => some 1
  | some t =>
    if t.length > 0 then
      match readNum t with
      | none => none
      | some v => if v = 0 then none else some v
    else some 1

/-- What one part between commas makes of the list of offsets. -/
inductive PartRes
  | offs (l : List Nat)
  | error
deriving DecidableEq, Repr

/-- A part with a colon: start, end and perhaps step (formats/json/m_json_jsonpath.c:108-151).  A
number that cannot be used ends this part only. -/
def slicePart (len : Nat) (a b : List UInt8) (c : Option (List UInt8)) : List Nat :=
  match optVal a len 0 with
  | none => []
  | some start =>
    match optVal b len len with
    | none => []
    | some stop =>
      match stepVal c with
      | none => []
      | some step => slice len start stop step

/-- The body of the loop over the parts between commas (formats/json/m_json_jsonpath.c:95-165).  A
single index that cannot be used ends the whole (line 155). -/
def part (len : Nat) (t : List UInt8) : PartRes :=
  match Str.explode 58 t with
  | none => .error
  | some [] => .offs []
  | some [a] =>
    match offsetVal a len with
    | none => .error
    | some i => .offs (if i < len then [i] else [])
  | some [a, b] => .offs (slicePart len a b none)
  | some [a, b, c] => .offs (slicePart len a b (some c))
  | some _ => .offs []

/-- The loop over the parts (formats/json/m_json_jsonpath.c:94-166). -/
def parts (len : Nat) : List (List UInt8) → Option (List Nat)
  | [] => some []
  | t :: ts =>
    match part len t with
    | .error => none
    | .offs l => (parts len ts).map (l ++ ·)

/-- `M_json_jsonpath_search_array_offsets` (formats/json/m_json_jsonpath.c:56-181); a null list is
empty for the caller. -/
def offsets (len : Nat) (seg : Seg) : List Nat :=
  if len = 0 ∨ seg.length < 3 then []
  else match Str.explode 44 ((seg.drop 1).take (seg.length - 2)) with
    | none => []
    | some ts => (parts len ts).getD []

/-- Blank segments (formats/json/m_json_jsonpath.c:217-225) followed by one that is not: the
segment, the ones after it, and whether to search recursively.  The code calls itself for each;
blank segments at the end match nothing. -/
def skip : List Seg → Bool → Option (Seg × List Seg × Bool)
  | [], _ => none
  | s :: r, deep => if s = [] then skip r true else some (s, r, deep)

/-- `M_str_caseeq` of two strings (formats/json/m_json_jsonpath.c:235); the function itself is
modelled in `Verif.Str`. -/
def caseeq (a b : List UInt8) : Bool := a.map Chr.toLower == b.map Chr.toLower

/-- The loop over the members of an object (formats/json/m_json_jsonpath.c:233-244), `a` and `b` being
the results of searching each member for the next segments and recursively for the same ones. -/
def overMembers (seg : Seg) (deep : Bool) : Nat → List (List UInt8) → List (List Path) →
    List (List Path) → List Path
  | i, k :: ks, a :: as, b :: bs =>
    (if seg = [42] ∨ caseeq seg k then a.map (i :: ·) else []) ++
      ((if deep then b.map (i :: ·) else []) ++ overMembers seg deep (i + 1) ks as bs)
  | _, _, _, _ => []

/-- A loop over all elements of an array (formats/json/m_json_jsonpath.c:249-251 and
formats/json/m_json_jsonpath.c:265-267), given the result for each. -/
def overElems : Nat → List (List Path) → List Path
  | _, [] => []
  | i, a :: as => a.map (i :: ·) ++ overElems (i + 1) as

/-- The loop over the offsets (formats/json/m_json_jsonpath.c:256-258), given the result for each
element. -/
def overOffsets (as : List (List Path)) : List Nat → List Path
  | [] => []
  | i :: is => ((as[i]?).getD []).map (i :: ·) ++ overOffsets as is

mutual

/-- `M_json_jsonpath_search` (formats/json/m_json_jsonpath.c:192-270).  The results of searching the
children are worked out first and put together in the order of the code. -/
def search : Json → List Seg → Bool → List Path
  | .arr l, segs, deep =>
    if segs = [] then [[]]
    else match skip segs deep with
      | none => []
      | some (seg, rest, deep) =>
        (if seg = [91, 42, 93] then overElems 0 (elems l rest deep)
          else if seg.head? = some 91 then overOffsets (elems l rest false) (offsets l.length seg)
          else []) ++
          (if deep then overElems 0 (elems l (seg :: rest) true) else [])
  | .obj l, segs, deep =>
    if segs = [] then [[]]
    else match skip segs deep with
      | none => []
      | some (seg, rest, deep) =>
        if seg.head? = some 91 then []
        else overMembers seg deep 0 (l.map (·.1)) (members l rest false)
          (members l (seg :: rest) true)
  | _, segs, _ => if segs = [] then [[]] else []

/-- The calls for the elements of an array. -/
def elems : List Json → List Seg → Bool → List (List Path)
  | [], _, _ => []
  | j :: l, segs, deep => search j segs deep :: elems l segs deep

/-- The calls for the members of an object. -/
def members : List (List UInt8 × Json) → List Seg → Bool → List (List Path)
  | [], _, _ => []
  | (_, j) :: l, segs, deep => search j segs deep :: members l segs deep

end

/-- The loop over the pieces of a segment split at `[` (formats/json/m_json_jsonpath.c:315-334).
`first` is `j == 0 && *(segments[i]) != '['`. -/
def pieces : Bool → List (List UInt8) → List Seg
  | _, [] => []
  | first, p :: ps =>
    (if p = [] then [] else if first then [p] else [91 :: p]) ++ pieces false ps

/-- The loop over the segments between dots (formats/json/m_json_jsonpath.c:303-336). -/
def segments : List (List UInt8) → Option (List Seg)
  | [] => some []
  | s :: ss =>
    if s = [] then (segments ss).map ([] :: ·)
    else
      match Str.explode 91 s with
      | none => none
      | some ps => (segments ss).map (pieces (s.head? ≠ some 91) ps ++ ·)

/-- `M_json_jsonpath` (formats/json/m_json_jsonpath.c:272-342).  `none` is a write outside the array
of a split string; no matches are the null pointer. -/
def jsonpath (j : Json) (expr : List UInt8) : Option (List Path) :=
  if expr.length < 1 ∨ expr.head? ≠ some 36 then some []
  else
    match Str.explode 46 (expr.drop 1) with
    | none => none
    | some [] => some []
    | some ss =>
      match segments ss with
      | none => none
      | some segs => some (search j segs false)

end Verif.JsonPath
