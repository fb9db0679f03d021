import Verif.JsonPath.ParseLemmas
import Verif.ExceptDec

/-!
# C119: searching JSON
-/

namespace Verif.JsonPath.C119

open Verif.Json (Json)
open Verif.JsonPath

/-! ## Expressions used in the examples -/

/-- `{"a":[{"b":1},{"b":2},{"b":3}],"c":{"a":{"b":4}}}` -/
def doc : Json :=
  .obj [([97], .arr [.obj [([98], .int 1)], .obj [([98], .int 2)], .obj [([98], .int 3)]]),
    ([99], .obj [([97], .obj [([98], .int 4)])])]

/-- `..a[1:].b` -/
def steps : List (Step × List UInt8) :=
  [(⟨true, .name [97]⟩, [97]), (⟨false, .items [.slice (some 1) none none]⟩, [91, 49, 58, 93]),
    (⟨false, .name [98]⟩, [98])]

theorem steps_texts : Texts steps := by
  intro x hx
  simp only [steps, List.mem_cons, List.not_mem_nil, or_false] at hx
  rcases hx with rfl | rfl | rfl
  · exact .name (by decide) (by decide) (by decide) (by decide) (by decide)
  · exact .items (ts := [[49, 58]]) (by simp)
      (.cons (.slice2 (ta := [49]) (tb := [])
        ⟨by decide, .inl ⟨⟨by decide, by decide⟩, by decide⟩⟩ rfl) .nil)
  · exact .name (by decide) (by decide) (by decide) (by decide) (by decide)

theorem steps_fit (j : Json) : FitsIn steps j := by
  intro x hx l hl p es _
  simp only [steps, List.mem_cons, List.not_mem_nil, or_false] at hx
  rcases hx with rfl | rfl | rfl
  · cases hl
  · cases hl
    refine ⟨fun v hv => by simp at hv, fun a b c h => ?_⟩
    simp only [List.mem_singleton, Item.slice.injEq] at h
    obtain ⟨rfl, rfl, rfl⟩ := h
    refine ⟨fun v hv => ?_, nofun⟩
    cases hv
    omega
  · cases hl

/-! ## What is found -/

/-- C119.  An expression finds the nodes it selects, each as often as it is selected, whatever the
document: the steps are followed one after another, a name selects the members with it, `*` all
members, `[*]` all elements, and indexes and slices the elements they stand for; `..` before a name
or `*` looks at the node itself and everything below it.

Not proved, because it does not hold: expressions that begin with a single dot and a name, `..`
before a bracket, and indexes before the beginning of an array in a list or a slice (see the
witnesses below). -/
theorem path_partial (j : Json) (r : List (Step × List UInt8)) (ht : Texts r) (hf : FitsIn r j)
    (h1 : ∃ x, r.head? = some x ∧ (x.1.deep = true ∨ x.1.sel.bracket = true))
    (hd : ∀ x ∈ r, x.1.deep = true → x.1.sel.bracket = false) :
    ∃ l, jsonpath j (36 :: text r) = some l ∧ l.Perm (eval (r.map (·.1)) j) := by
  obtain ⟨x, hx, hb⟩ := h1
  cases r with
  | nil => cases hx
  | cons y r =>
    cases hx
    exact ⟨_, jsonpath_text j ht hb, search_eval _ j (Nat.lt_succ_self _) _ ht hd hf⟩

example : text steps = [46, 46, 97, 91, 49, 58, 93, 46, 98] := by decide
example : eval (steps.map (·.1)) doc = [[0, 1, 0], [0, 2, 0]] := by decide +kernel
example : ∃ l, jsonpath doc (36 :: text steps) = some l ∧ l.Perm (eval (steps.map (·.1)) doc) :=
  path_partial doc steps steps_texts (steps_fit doc) ⟨_, rfl, .inl rfl⟩ (by decide)

/-- C119.  Without `..`, what is found is in the order of the steps: by the first, then by the
second and so on; members and `[*]` in the order of the document, and items in the order they are
listed. -/
theorem order_partial (j : Json) (r : List (Step × List UInt8)) (ht : Texts r) (hf : FitsIn r j)
    (h1 : ∃ x, r.head? = some x ∧ x.1.sel.bracket = true) (hd : ∀ x ∈ r, x.1.deep = false) :
    jsonpath j (36 :: text r) = some (eval (r.map (·.1)) j) := by
  obtain ⟨x, hx, hb⟩ := h1
  cases r with
  | nil => cases hx
  | cons y r =>
    cases hx
    rw [jsonpath_text j ht (.inr hb), search_eval_flat _ j ht hd hf]

/-- `[3:0:-2,0]`: counting down from 3 (exclusive) to 0 (inclusive) by 2, then the first. -/
def down : List (Step × List UInt8) :=
  [(⟨false, .items [.slice (some 3) (some 0) (some (-2)), .idx 0]⟩, [91, 51, 58, 48, 58, 45, 50, 44, 48, 93])]

example : jsonpath (.arr [.int 7, .int 8, .int 9]) (36 :: text down) = some [[2], [0], [0]] := by
  rw [order_partial _ down ?_ ?_ ⟨_, rfl, rfl⟩ (by decide)]
  · decide +kernel
  · intro x hx
    obtain rfl := List.mem_singleton.mp hx
    exact .items (ts := [[51, 58, 48, 58, 45, 50], [48]]) (by simp)
      (.cons (.slice3 (ta := [51]) (tb := [48]) (tc := [45, 50])
        ⟨by decide, .inl ⟨⟨by decide, by decide⟩, by decide⟩⟩
        ⟨by decide, .inl ⟨⟨by decide, by decide⟩, by decide⟩⟩
        ⟨by decide, .inr ⟨[50], rfl, ⟨by decide, by decide⟩, by decide⟩⟩ (by decide))
        (.cons (.idx ⟨by decide, .inl ⟨⟨by decide, by decide⟩, by decide⟩⟩) .nil))
  · intro x hx l hl p es hp
    obtain rfl := List.mem_singleton.mp hx
    cases hl
    refine ⟨fun v hv => .inr ?_, fun a b c h => ?_⟩
    · simp only [List.mem_cons, List.not_mem_nil, or_false, reduceCtorEq, false_or, Item.idx.injEq] at hv
      omega
    · simp only [List.mem_cons, List.not_mem_nil, or_false, reduceCtorEq, Item.slice.injEq] at h
      obtain ⟨rfl, rfl, rfl⟩ := h
      exact ⟨fun v hv => by cases hv; omega, fun v hv => by cases hv; omega⟩

/-- The node at the end of a way down. -/
def at? : Json → List Nat → Option Json
  | j, [] => some j
  | j, i :: p => match (children j)[i]? with
    | some x => at? x.2 p
    | none => none

theorem number_nth : ∀ (l : List Json) (i : Nat) (x : Nat × Json), x ∈ number i l →
    ∃ k, x.1 = i + k ∧ (number i l)[k]? = some x
  | [], _, _, h => by cases h
  | j :: l, i, x, h => by
    rcases List.mem_cons.mp h with rfl | h
    · exact ⟨0, rfl, rfl⟩
    · obtain ⟨k, h1, h2⟩ := number_nth l (i + 1) x h
      exact ⟨k + 1, by omega, by rw [number, List.getElem?_cons_succ]; exact h2⟩

theorem children_nth {j : Json} {x : Nat × Json} (h : x ∈ children j) : (children j)[x.1]? = some x := by
  cases j with
  | arr l =>
    obtain ⟨k, h1, h2⟩ := number_nth l 0 x h
    rw [h1, Nat.zero_add]; exact h2
  | obj l =>
    obtain ⟨k, h1, h2⟩ := number_nth _ 0 x h
    rw [h1, Nat.zero_add]; exact h2
  | null => cases h
  | bool => cases h
  | int => cases h
  | dec => cases h
  | str => cases h

theorem overMembers_mem (seg : Seg) (deep : Bool) (a b : List Seg) (p : Path) :
    ∀ (l : List (List UInt8 × Json)) (i : Nat),
    p ∈ overMembers seg deep i (l.map (·.1)) (members l a false) (members l b true) →
    ∃ x ∈ number i (l.map (·.2)), ∃ q, p = x.1 :: q ∧ (q ∈ search x.2 a false ∨ q ∈ search x.2 b true)
  | [], i, h => by simp [overMembers] at h
  | (k, j) :: l, i, h => by
    rw [List.map_cons, members, members, overMembers] at h
    rw [List.map_cons, number]
    simp only [List.mem_append] at h
    rcases h with h | h | h
    · by_cases hc : seg = [42] ∨ caseeq seg k = true
      · rw [if_pos hc] at h
        obtain ⟨q, hq, rfl⟩ := List.mem_map.mp h
        exact ⟨_, List.mem_cons_self, q, rfl, .inl hq⟩
      · rw [if_neg hc] at h
        cases h
    · cases deep with
      | true =>
        obtain ⟨q, hq, rfl⟩ := List.mem_map.mp h
        exact ⟨_, List.mem_cons_self, q, rfl, .inr hq⟩
      | false => cases h
    · obtain ⟨x, hx, q, h1, h2⟩ := overMembers_mem seg deep a b p l (i + 1) h
      exact ⟨x, List.mem_cons_of_mem _ hx, q, h1, h2⟩

theorem search_at : ∀ (n : Nat) (j : Json), sizeOf j < n → ∀ segs d p, p ∈ search j segs d →
    (at? j p).isSome
  | 0, _, h, _, _, _, _ => absurd h (by omega)
  | n + 1, j, hn, segs, d, p, hp => by
    have step : ∀ x ∈ children j, ∀ q segs d, p = x.1 :: q → q ∈ search x.2 segs d → (at? j p).isSome := by
      intro x hx q segs d e hq
      rw [e, at?, children_nth hx]
      exact search_at n x.2 (by have := children_size hx; omega) segs d q hq
    have leaf : ∀ {p : Path}, p ∈ (if segs = [] then [[]] else [] : List Path) → (at? j p).isSome := by
      intro p h
      split at h
      · rw [List.mem_singleton.mp h]; rfl
      · cases h
    cases j with
    | arr l =>
      rw [search] at hp
      split at hp
      · rw [List.mem_singleton.mp hp]; rfl
      · cases e : skip segs d with
        | none => rw [e] at hp; cases hp
        | some v =>
          obtain ⟨seg, rest, d'⟩ := v
          rw [e] at hp
          simp only [overElems_eq, overOffsets_eq] at hp
          rcases List.mem_append.mp hp with h | h
          · split at h
            · obtain ⟨x, hx, h⟩ := List.mem_flatMap.mp h
              obtain ⟨q, hq, e⟩ := List.mem_map.mp h
              exact step x hx q _ _ e.symm hq
            · split at h
              · obtain ⟨x, hx, h⟩ := List.mem_flatMap.mp h
                obtain ⟨q, hq, e⟩ := List.mem_map.mp h
                obtain ⟨i, _, hi⟩ := List.mem_filterMap.mp hx
                rcases e2 : l[i]? with _ | y
                · rw [e2] at hi; cases hi
                · rw [e2] at hi
                  cases hi
                  have := number_get l 0 i y e2
                  rw [Nat.zero_add] at this
                  exact step _ this q _ _ e.symm hq
              · cases h
          · split at h
            · obtain ⟨x, hx, h⟩ := List.mem_flatMap.mp h
              obtain ⟨q, hq, e⟩ := List.mem_map.mp h
              exact step x hx q _ _ e.symm hq
            · cases h
    | obj l =>
      rw [search] at hp
      split at hp
      · rw [List.mem_singleton.mp hp]; rfl
      · cases e : skip segs d with
        | none => rw [e] at hp; cases hp
        | some v =>
          obtain ⟨seg, rest, d'⟩ := v
          rw [e] at hp
          simp only at hp
          split at hp
          · cases hp
          · obtain ⟨x, hx, q, h1, h2⟩ := overMembers_mem _ _ _ _ p l 0 hp
            rcases h2 with h2 | h2
            · exact step x hx q _ _ h1 h2
            · exact step x hx q _ _ h1 h2
    | null => exact leaf (by simpa only [search] using hp)
    | bool => exact leaf (by simpa only [search] using hp)
    | int => exact leaf (by simpa only [search] using hp)
    | dec => exact leaf (by simpa only [search] using hp)
    | str => exact leaf (by simpa only [search] using hp)

/-- C119.  Whatever the expression, well formed or not, what is found are nodes of the document. -/
theorem found_exists (j : Json) (expr : List UInt8) (l : List Path) (h : jsonpath j expr = some l) :
    ∀ p ∈ l, (at? j p).isSome := by
  intro p hp
  rw [jsonpath] at h
  split at h
  · cases h; cases hp
  · split at h
    · cases h
    · cases h; cases hp
    · split at h
      · cases h
      · cases h
        exact search_at _ j (Nat.lt_succ_self _) _ _ p hp

/- `$[1x].b[` on an array of two objects. -/
example : jsonpath (.arr [.obj [([98], .int 1)], .obj [([98], .int 2)]]) [36, 91, 49, 120, 93, 46, 98, 91] =
    some [[1, 0]] := by decide +kernel
example : at? (.arr [.obj [([98], .int 1)], .obj [([98], .int 2)]]) [1, 0] = some (.int 2) := by rfl

/-- C119.  An expression that does not begin with `$` finds nothing. -/
theorem no_root (j : Json) (expr : List UInt8) (h : expr.head? ≠ some 36) : jsonpath j expr = some [] := by
  rw [jsonpath, if_pos (.inr h)]

/-- C119.  A bare `$` finds nothing either. -/
theorem root_only (j : Json) : jsonpath j [36] = some [] := by
  rw [jsonpath, if_neg (by decide)]
  have : Str.explode 46 (([36] : List UInt8).drop 1) = some [] := by decide
  rw [this]

/-! ## Where the code does something else -/

/-- The documented meaning of a first `.name`: a member of the node itself.  The code takes the blank
text before the first dot for the blank one of `..` and finds members anywhere below:
`$.a` on `{"x":{"a":1}}`. -/
theorem root_child_fails :
    eval [⟨false, .name [97]⟩] (.obj [([120], .obj [([97], .int 1)])]) = [] ∧
    jsonpath (.obj [([120], .obj [([97], .int 1)])]) (36 :: text [(⟨false, .name [97]⟩, [97])]) =
      some [[0, 0]] := by
  constructor <;> decide +kernel

/-- `..` before an index does not look into objects: `$..[0]` on `{"a":[1]}`. -/
theorem deep_index_fails :
    eval [⟨true, .items [.idx 0]⟩] (.obj [([97], .arr [.int 1])]) = [[0, 0]] ∧
    jsonpath (.obj [([97], .arr [.int 1])])
      (36 :: text [(⟨true, .items [.idx 0]⟩, [91, 48, 93])]) = some [] := by
  constructor <;> decide +kernel

/-- After `..[*]` the next step is looked for anywhere below and not only in the elements, so that the
same node is found more than once: `$..[*].a` on `[{"x":{"a":1}},[{"a":2}]]`. -/
theorem deep_all_fails :
    eval [⟨true, .all⟩, ⟨false, .name [97]⟩]
      (.arr [.obj [([120], .obj [([97], .int 1)])], .arr [.obj [([97], .int 2)]]]) = [[1, 0, 0]] ∧
    jsonpath (.arr [.obj [([120], .obj [([97], .int 1)])], .arr [.obj [([97], .int 2)]]])
      (36 :: text [(⟨true, .all⟩, [91, 42, 93]), (⟨false, .name [97]⟩, [97])]) =
      some [[0, 0, 0], [1, 0, 0], [1, 0, 0]] := by
  constructor <;> decide +kernel

/-- One index before the beginning of the array makes all the others count for nothing: `$[-5,0]` on
two elements. -/
theorem bad_index_fails :
    eval [⟨false, .items [.idx (-5), .idx 0]⟩] (.arr [.int 1, .int 2]) = [[0]] ∧
    jsonpath (.arr [.int 1, .int 2])
      (36 :: text [(⟨false, .items [.idx (-5), .idx 0]⟩, [91, 45, 53, 44, 48, 93])]) = some [] := by
  constructor <;> decide +kernel

/-- The last three elements of an array of two are none: `$[-3:]`. -/
theorem slice_fails :
    eval [⟨false, .items [.slice (some (-3)) none none]⟩] (.arr [.int 1, .int 2]) = [[0], [1]] ∧
    jsonpath (.arr [.int 1, .int 2])
      (36 :: text [(⟨false, .items [.slice (some (-3)) none none]⟩, [91, 45, 51, 58, 93])]) = some [] := by
  constructor <;> decide +kernel

/-- JSON tells `a` from `A`, expressions do not: `$..a` on `{"A":1}`. -/
theorem case_fails :
    jsonpath (.obj [([65], .int 1)]) (36 :: text [(⟨true, .name [97]⟩, [97])]) = some [[0]] := by
  decide +kernel

end Verif.JsonPath.C119
