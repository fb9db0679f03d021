import Verif.JsonPath.Lemmas

/-!
# Lemmas about searching JSON: the search itself
-/

namespace Verif.JsonPath

open Verif.Json (Json)

/-- A way down lengthened by a position. -/
def under (i : Nat) (ps : List Path) : List Path := ps.map (i :: ·)

theorem flatMap_congr {α β : Type} {l : List α} {f g : α → List β} (h : ∀ x ∈ l, f x = g x) :
    l.flatMap f = l.flatMap g := by
  induction l with
  | nil => rfl
  | cons a l ih =>
    rw [List.flatMap_cons, List.flatMap_cons, h a (by simp),
      ih fun x hx => h x (List.mem_cons_of_mem _ hx)]

theorem flatMap_perm {α β : Type} {l : List α} {f g : α → List β} (h : ∀ x ∈ l, (f x).Perm (g x)) :
    (l.flatMap f).Perm (l.flatMap g) := by
  induction l with
  | nil => exact .refl _
  | cons a l ih =>
    rw [List.flatMap_cons, List.flatMap_cons]
    exact (h a (by simp)).append (ih fun x hx => h x (List.mem_cons_of_mem _ hx))

/-! ## The loops of the model -/

theorem overElems_eq (segs : List Seg) (d : Bool) : ∀ (l : List Json) (i : Nat),
    overElems i (elems l segs d) = (number i l).flatMap fun x => under x.1 (search x.2 segs d)
  | [], i => by simp [elems, overElems, number]
  | j :: l, i => by
    rw [elems, overElems, number, List.flatMap_cons, overElems_eq segs d l (i + 1)]
    rfl

theorem elems_get (segs : List Seg) (d : Bool) : ∀ (l : List Json) (i : Nat),
    (elems l segs d)[i]? = l[i]?.map fun j => search j segs d
  | [], i => by simp [elems]
  | j :: l, 0 => by simp [elems]
  | j :: l, i + 1 => by
    rw [elems, List.getElem?_cons_succ, List.getElem?_cons_succ, elems_get segs d l i]

theorem overOffsets_eq (segs : List Seg) (d : Bool) (l : List Json) : ∀ os : List Nat,
    overOffsets (elems l segs d) os =
      (os.filterMap fun i => l[i]?.map fun j => (i, j)).flatMap fun x => under x.1 (search x.2 segs d)
  | [] => rfl
  | i :: os => by
    rw [overOffsets, overOffsets_eq segs d l os, elems_get, List.filterMap_cons]
    rcases l[i]? with _ | j
    · rfl
    · rw [Option.map_some, Option.map_some, Option.getD_some, List.flatMap_cons]
      rfl

theorem members_eq (segs : List Seg) (d : Bool) : ∀ l : List (List UInt8 × Json),
    members l segs d = elems (l.map (·.2)) segs d
  | [] => by simp [members, elems]
  | (_, j) :: l => by
    rw [members, List.map_cons, elems, members_eq segs d l]

/-- The members a segment selects, when it is not in brackets. -/
theorem overMembers_perm (seg : Seg) (deep : Bool) (rest r' : List Seg) (pick : Nat → List (List UInt8 × Json) → List (Nat × Json))
    (hnil : ∀ i, pick i [] = [])
    (hcons : ∀ i k j l, pick i ((k, j) :: l) =
      (if seg = [42] ∨ caseeq seg k then [(i, j)] else []) ++ pick (i + 1) l) :
    ∀ (l : List (List UInt8 × Json)) (i : Nat),
    (overMembers seg deep i (l.map (·.1)) (members l rest false) (members l r' true)).Perm
      ((pick i l).flatMap (fun x => under x.1 (search x.2 rest false)) ++
        (if deep then (number i (l.map (·.2))).flatMap fun x => under x.1 (search x.2 r' true) else []))
  | [], i => by
    rw [hnil]
    cases deep <;> simp [overMembers, number]
  | (k, j) :: l, i => by
    have ih := overMembers_perm seg deep rest r' pick hnil hcons l (i + 1)
    rw [hcons, List.flatMap_append, List.map_cons, members, members, overMembers, List.map_cons, number,
      List.flatMap_cons]
    have e1 : (if seg = [42] ∨ caseeq seg k = true then (search j rest false).map (i :: ·) else []) =
        (if seg = [42] ∨ caseeq seg k = true then [(i, j)] else []).flatMap
          fun x => under x.1 (search x.2 rest false) := by
      split
      · simp [under]
      · rfl
    rw [e1]
    generalize (if seg = [42] ∨ caseeq seg k = true then [(i, j)] else []).flatMap
          (fun x => under x.1 (search x.2 rest false)) = A at *
    cases deep with
    | false =>
      simp only [Bool.false_eq_true, if_false, List.nil_append, List.append_nil] at ih ⊢
      exact ih.append_left A
    | true =>
      simp only [if_true] at ih ⊢
      rw [List.append_assoc]
      refine List.Perm.append_left A ?_
      refine (ih.append_left _).trans ?_
      show ((search j r' true).map (i :: ·) ++ _).Perm _
      rw [← List.append_assoc, ← List.append_assoc]
      exact List.perm_append_comm.append_right _

/-! ## One step of the search -/

theorem SelText.ne {s : Sel} {t : List UInt8} (h : SelText s t) : t ≠ [] := by
  cases h with
  | name h => exact h
  | any => simp
  | all => simp
  | items => simp

theorem SelText.head {s : Sel} {t : List UInt8} (h : SelText s t) :
    t.head? = some 91 ↔ s.bracket = true := by
  cases h with
  | name h1 h2 h3 h4 h5 =>
    refine ⟨fun hh => absurd (List.mem_of_mem_head? hh) h5, fun hb => by cases hb⟩
  | any => decide
  | all => decide
  | items => simp [Sel.bracket]

theorem items_ne_star {ts : List (List UInt8)} {l : List Item} (h : ItemTexts l ts) (hl : l ≠ []) :
    (91 :: (Str.join [44] ts ++ [93]) : List UInt8) ≠ [91, 42, 93] := by
  intro he
  have hj : Str.join [44] ts = [42] := by
    have := (List.cons.inj he).2
    have h2 : ([42, 93] : List UInt8) = [42] ++ [93] := rfl
    rw [h2] at this
    exact List.append_cancel_right this
  have key : ∀ t ∈ ts, (42 : UInt8) ∉ t := by
    clear hl he hj
    have hn : ∀ {t v}, NumText t v → (42 : UInt8) ∉ t := by
      intro t v h hc
      obtain ⟨_, ⟨⟨_, h⟩, _⟩ | ⟨ds, rfl, ⟨_, h⟩, _⟩⟩ := h
      · exact absurd (h _ hc) (by decide)
      · rcases List.mem_cons.mp hc with h0 | hc
        · exact absurd h0 (by decide)
        · exact absurd (h _ hc) (by decide)
    have ho : ∀ {t o}, OptText t o → (42 : UInt8) ∉ t := by
      intro t o h
      cases o with
      | none => obtain rfl : t = [] := h; simp
      | some v => exact hn h
    induction h with
    | nil => intro t ht; cases ht
    | cons h1 h2 ih =>
      intro t ht
      rcases List.mem_cons.mp ht with rfl | ht
      · cases h1 with
        | idx h => exact hn h
        | slice2 a b =>
          simp only [List.mem_append, List.mem_cons, not_or]
          exact ⟨ho a, by decide, ho b⟩
        | slice3 a b c =>
          simp only [List.mem_append, List.mem_cons, not_or]
          exact ⟨ho a, by decide, ho b, by decide, ho c⟩
      · exact ih t ht
  have h42 : (42 : UInt8) ∈ Str.join [44] ts := by rw [hj]; simp
  rcases join_mem 44 42 ts h42 with h0 | ⟨t, ht, hc⟩
  · exact absurd h0 (by decide)
  · exact key t ht hc

theorem skip_cons {t : Seg} (h : t ≠ []) (rest : List Seg) (d : Bool) :
    skip (t :: rest) d = some (t, rest, d) := by
  rw [skip, if_neg h]

/-- What a search for one segment does, whatever the segments after it are. -/
theorem search_step {sel : Sel} {t : Seg} (h : SelText sel t) (rest : List Seg) (deep : Bool) (j : Json)
    (hall : deep = true → sel.bracket = false)
    (hfit : ∀ its, sel = .items its → ∀ es, j = .arr es → Fits es.length its) :
    (search j (t :: rest) deep).Perm
      ((kids sel j).flatMap (fun x => under x.1 (search x.2 rest false)) ++
        (if deep then (children j).flatMap fun x => under x.1 (search x.2 (t :: rest) true) else [])) := by
  cases j with
  | null => cases sel <;> cases deep <;> simp [search, kids, children]
  | bool b => cases sel <;> cases deep <;> simp [search, kids, children]
  | int n => cases sel <;> cases deep <;> simp [search, kids, children]
  | dec d => cases sel <;> cases deep <;> simp [search, kids, children]
  | str s => cases sel <;> cases deep <;> simp [search, kids, children]
  | arr l =>
    rw [search, if_neg (by simp), skip_cons h.ne]
    simp only [overElems_eq, children]
    have hk : (if t = [91, 42, 93] then (number 0 l).flatMap fun x => under x.1 (search x.2 rest deep)
        else if t.head? = some 91 then overOffsets (elems l rest false) (offsets l.length t) else []) =
        (kids sel (.arr l)).flatMap fun x => under x.1 (search x.2 rest false) := by
      cases h with
      | name h1 h2 h3 h4 h5 =>
        rw [if_neg (fun he => h5 (by rw [he]; simp)),
          if_neg (fun hh : t.head? = some 91 => h5 (List.mem_of_mem_head? hh))]
        rfl
      | any => rfl
      | all =>
        rw [if_pos rfl]
        cases deep with
        | true => exact absurd (hall rfl) (by decide)
        | false => rfl
      | @items its ts h1 h2 =>
        rw [if_neg (items_ne_star h2 h1), if_pos List.head?_cons, overOffsets_eq,
          offsets_text h2 h1 _ (hfit its rfl l rfl)]
        rfl
    rw [hk]
  | obj l =>
    rw [search, if_neg (by simp), skip_cons h.ne]
    simp only
    cases h with
    | name h1 h2 h3 h4 h5 =>
      rw [if_neg (fun hh : t.head? = some 91 => h5 (List.mem_of_mem_head? hh))]
      exact overMembers_perm _ deep rest _ (byName _) (fun _ => rfl) (fun i k j l => by
        rw [byName]
        congr 1
        by_cases hs : sameName t k = true
        · rw [if_pos hs, if_pos (.inr hs)]
        · rw [if_neg hs, if_neg (fun h => h.elim h2 hs)]) l 0
    | any =>
      rw [if_neg (by decide)]
      exact overMembers_perm _ deep rest _ (fun i l => number i (l.map (·.2))) (fun _ => rfl)
        (fun i k j l => by
          rw [if_pos (.inl rfl)]
          rfl) l 0
    | all =>
      rw [if_pos List.head?_cons]
      cases deep with
      | true => exact absurd (hall rfl) (by decide)
      | false => exact .refl _
    | items h1 h2 =>
      rw [if_pos List.head?_cons]
      cases deep with
      | true => exact absurd (hall rfl) (by simp [Sel.bracket])
      | false => exact .refl _

theorem search_blank (j : Json) (seg : Seg) (rest : List Seg) (d : Bool) :
    search j ([] :: seg :: rest) d = search j (seg :: rest) true := by
  cases j <;> simp [search, skip]

theorem search_nil (j : Json) (d : Bool) : search j [] d = [[]] := by
  cases j <;> simp [search]

/-! ## Everything below a node -/

theorem subElems_eq : ∀ (l : List Json) (i : Nat),
    subElems i l = (number i l).flatMap fun c => (sub c.2).map fun x => (c.1 :: x.1, x.2)
  | [], i => by simp [subElems, number]
  | j :: l, i => by rw [subElems, number, List.flatMap_cons, subElems_eq l (i + 1)]

theorem subMembers_eq : ∀ (l : List (List UInt8 × Json)) (i : Nat),
    subMembers i l = (number i (l.map (·.2))).flatMap fun c => (sub c.2).map fun x => (c.1 :: x.1, x.2)
  | [], i => by simp [subMembers, number]
  | (_, j) :: l, i => by
    rw [subMembers, List.map_cons, number, List.flatMap_cons, subMembers_eq l (i + 1)]

theorem sub_eq (j : Json) :
    sub j = ([], j) :: (children j).flatMap fun c => (sub c.2).map fun x => (c.1 :: x.1, x.2) := by
  cases j with
  | arr l => rw [sub, subElems_eq]; rfl
  | obj l => rw [sub, subMembers_eq]; rfl
  | null => simp [sub, children]
  | bool => simp [sub, children]
  | int => simp [sub, children]
  | dec => simp [sub, children]
  | str => simp [sub, children]

theorem eval_flat (sel : Sel) (r : List Step) (j : Json) :
    eval (⟨false, sel⟩ :: r) j = (kids sel j).flatMap fun y => under y.1 (eval r y.2) := by
  rw [eval]
  simp [under]

theorem eval_deep (sel : Sel) (r : List Step) (j : Json) :
    eval (⟨true, sel⟩ :: r) j = (kids sel j).flatMap (fun y => under y.1 (eval r y.2)) ++
      (children j).flatMap fun c => under c.1 (eval (⟨true, sel⟩ :: r) c.2) := by
  rw [eval, if_pos rfl, sub_eq, List.flatMap_cons]
  congr 1
  rw [List.flatMap_assoc]
  refine flatMap_congr fun c _ => ?_
  rw [eval, if_pos rfl, List.flatMap_map, under, List.map_flatMap]
  refine flatMap_congr fun x _ => ?_
  rw [List.map_flatMap]
  refine flatMap_congr fun y _ => ?_
  rw [List.map_map]
  rfl

/-! ## Children are smaller, and what is selected are children -/

theorem number_mem : ∀ (l : List Json) (i : Nat) (x : Nat × Json), x ∈ number i l → x.2 ∈ l
  | [], _, _, h => by cases h
  | j :: l, i, x, h => by
    rcases List.mem_cons.mp h with rfl | h
    · simp
    · exact List.mem_cons_of_mem _ (number_mem l _ x h)

theorem number_get : ∀ (l : List Json) (i k : Nat) (j : Json), l[k]? = some j → (i + k, j) ∈ number i l
  | [], _, _, _, h => by simp at h
  | a :: l, i, 0, j, h => by
    simp only [List.getElem?_cons_zero, Option.some.injEq] at h
    subst h
    simp [number]
  | a :: l, i, k + 1, j, h => by
    have := number_get l (i + 1) k j (by simpa using h)
    rw [show i + 1 + k = i + (k + 1) by omega] at this
    exact List.mem_cons_of_mem _ this

theorem byName_mem (k : List UInt8) : ∀ (l : List (List UInt8 × Json)) (i : Nat) (x : Nat × Json),
    x ∈ byName k i l → x ∈ number i (l.map (·.2))
  | [], _, _, h => by cases h
  | (k', j) :: l, i, x, h => by
    rw [byName] at h
    rw [List.map_cons, number]
    rcases List.mem_append.mp h with h | h
    · split at h
      · rw [List.mem_singleton.mp h]; simp
      · cases h
    · exact List.mem_cons_of_mem _ (byName_mem k l _ x h)

theorem kids_children (sel : Sel) (j : Json) (x : Nat × Json) (h : x ∈ kids sel j) : x ∈ children j := by
  cases j with
  | arr l =>
    cases sel with
    | all => exact h
    | items its =>
      obtain ⟨i, _, hi⟩ := List.mem_filterMap.mp h
      rcases e : l[i]? with _ | j
      · rw [e] at hi; cases hi
      · rw [e] at hi
        cases hi
        have := number_get l 0 i j e
        rwa [Nat.zero_add] at this
    | name => cases h
    | any => cases h
  | obj l =>
    cases sel with
    | name k => exact byName_mem k l 0 x h
    | any => exact h
    | all => cases h
    | items => cases h
  | null => cases sel <;> cases h
  | bool => cases sel <;> cases h
  | int => cases sel <;> cases h
  | dec => cases sel <;> cases h
  | str => cases sel <;> cases h

theorem children_size {j : Json} {x : Nat × Json} (h : x ∈ children j) : sizeOf x.2 < sizeOf j := by
  cases j with
  | arr l =>
    have := List.sizeOf_lt_of_mem (number_mem l 0 x h)
    simp only [Json.arr.sizeOf_spec]
    omega
  | obj l =>
    obtain ⟨m, hm, e⟩ := List.mem_map.mp (number_mem _ 0 x h)
    have h1 := List.sizeOf_lt_of_mem hm
    have h2 : sizeOf m = 1 + sizeOf m.1 + sizeOf m.2 := by cases m; simp
    simp only [Json.obj.sizeOf_spec]
    rw [← e]
    omega
  | null => cases h
  | bool => cases h
  | int => cases h
  | dec => cases h
  | str => cases h

theorem FitsIn.child {r : List (Step × List UInt8)} {j : Json} (h : FitsIn r j) {x : Nat × Json}
    (hx : x ∈ children j) : FitsIn r x.2 := by
  intro y hy l hl p es hp
  refine h y hy l hl (x.1 :: p) es ?_
  rw [sub_eq]
  exact List.mem_cons_of_mem _ (List.mem_flatMap.mpr ⟨x, hx, List.mem_map.mpr ⟨_, hp, rfl⟩⟩)

/-! ## The search selects what the expression says -/

/-- The segments of steps after the first. -/
def segsOf : List (Step × List UInt8) → List Seg
  | [] => []
  | (s, t) :: r => (if s.deep then [[], t] else [t]) ++ segsOf r

/-- No `..` before a bracket. -/
def NoDeepBracket (r : List (Step × List UInt8)) : Prop :=
  ∀ x ∈ r, x.1.deep = true → x.1.sel.bracket = false

theorem search_eval : ∀ (n : Nat) (j : Json), sizeOf j < n → ∀ r, Texts r → NoDeepBracket r →
    FitsIn r j → (search j (segsOf r) false).Perm (eval (r.map (·.1)) j)
  | 0, _, h, _, _, _, _ => absurd h (by omega)
  | n + 1, j, hn, [], _, _, _ => by
    rw [segsOf, search_nil]
    exact .refl _
  | n + 1, j, hn, (⟨deep, sel⟩, t) :: r, ht, hd, hf => by
    have hsel : SelText sel t := ht _ List.mem_cons_self
    have ht' : Texts r := fun x hx => ht x (List.mem_cons_of_mem _ hx)
    have hd' : NoDeepBracket r := fun x hx => hd x (List.mem_cons_of_mem _ hx)
    have hf' : ∀ {x}, x ∈ children j → FitsIn r x.2 := fun hx =>
      FitsIn.child (fun x hx => hf x (List.mem_cons_of_mem _ hx)) hx
    have hfit : ∀ its, sel = .items its → ∀ es, j = .arr es → Fits es.length its := by
      intro its e es e2
      refine hf _ List.mem_cons_self its e [] es ?_
      rw [sub_eq, e2]
      simp
    cases deep with
    | false =>
      show (search j (t :: segsOf r) false).Perm (eval (⟨false, sel⟩ :: r.map (·.1)) j)
      rw [eval_flat]
      have h := search_step hsel (segsOf r) false j (fun h => by cases h) hfit
      rw [if_neg (by decide), List.append_nil] at h
      refine h.trans (flatMap_perm fun x hx => ?_)
      have hx := kids_children _ _ _ hx
      exact (search_eval n x.2 (by have := children_size hx; omega) r ht' hd' (hf' hx)).map _
    | true =>
      show (search j ([] :: t :: segsOf r) false).Perm (eval (⟨true, sel⟩ :: r.map (·.1)) j)
      rw [eval_deep, search_blank]
      have h := search_step hsel (segsOf r) true j (fun _ => hd _ List.mem_cons_self rfl) hfit
      rw [if_pos rfl] at h
      refine h.trans (.append (flatMap_perm fun x hx => ?_) (flatMap_perm fun x hx => ?_))
      · have hx := kids_children _ _ _ hx
        exact (search_eval n x.2 (by have := children_size hx; omega) r ht' hd' (hf' hx)).map _
      · have := search_eval n x.2 (by have := children_size hx; omega) ((⟨true, sel⟩, t) :: r) ht hd
          (hf.child hx)
        rw [segsOf, if_pos rfl] at this
        have e : [[], t] ++ segsOf r = [] :: t :: segsOf r := rfl
        rw [e, search_blank] at this
        exact this.map _

/-! ## The order of what is selected, without `..` -/

theorem overMembers_eq (seg : Seg) (rest r' : List Seg) (pick : Nat → List (List UInt8 × Json) → List (Nat × Json))
    (hnil : ∀ i, pick i [] = [])
    (hcons : ∀ i k j l, pick i ((k, j) :: l) =
      (if seg = [42] ∨ caseeq seg k then [(i, j)] else []) ++ pick (i + 1) l) :
    ∀ (l : List (List UInt8 × Json)) (i : Nat),
    overMembers seg false i (l.map (·.1)) (members l rest false) (members l r' true) =
      (pick i l).flatMap fun x => under x.1 (search x.2 rest false)
  | [], i => by
    rw [hnil]
    simp [overMembers]
  | (k, j) :: l, i => by
    have ih := overMembers_eq seg rest r' pick hnil hcons l (i + 1)
    rw [hcons, List.flatMap_append, List.map_cons, members, members, overMembers, ih]
    simp only [Bool.false_eq_true, if_false, List.append_nil, List.nil_append]
    congr 1
    split
    · simp [under]
    · rfl

theorem search_step_flat {sel : Sel} {t : Seg} (h : SelText sel t) (rest : List Seg) (j : Json)
    (hfit : ∀ its, sel = .items its → ∀ es, j = .arr es → Fits es.length its) :
    search j (t :: rest) false = (kids sel j).flatMap fun x => under x.1 (search x.2 rest false) := by
  cases j with
  | null => cases sel <;> simp [search, kids]
  | bool b => cases sel <;> simp [search, kids]
  | int n => cases sel <;> simp [search, kids]
  | dec d => cases sel <;> simp [search, kids]
  | str s => cases sel <;> simp [search, kids]
  | arr l =>
    rw [search, if_neg (by simp), skip_cons h.ne]
    simp only [overElems_eq, Bool.false_eq_true, if_false, List.append_nil]
    cases h with
    | name h1 h2 h3 h4 h5 =>
      rw [if_neg (fun he => h5 (by rw [he]; simp)),
        if_neg (fun hh : t.head? = some 91 => h5 (List.mem_of_mem_head? hh))]
      rfl
    | any => rfl
    | all =>
      rw [if_pos rfl]
      rfl
    | @items its ts h1 h2 =>
      rw [if_neg (items_ne_star h2 h1), if_pos List.head?_cons, overOffsets_eq,
        offsets_text h2 h1 _ (hfit its rfl l rfl)]
      rfl
  | obj l =>
    rw [search, if_neg (by simp), skip_cons h.ne]
    simp only
    cases h with
    | name h1 h2 h3 h4 h5 =>
      rw [if_neg (fun hh : t.head? = some 91 => h5 (List.mem_of_mem_head? hh))]
      exact overMembers_eq _ rest _ (byName _) (fun _ => rfl) (fun i k j l => by
        rw [byName]
        congr 1
        by_cases hs : sameName t k = true
        · rw [if_pos hs, if_pos (.inr hs)]
        · rw [if_neg hs, if_neg (fun h => h.elim h2 hs)]) l 0
    | any =>
      rw [if_neg (by decide)]
      exact overMembers_eq _ rest _ (fun i l => number i (l.map (·.2))) (fun _ => rfl)
        (fun i k j l => by
          rw [if_pos (.inl rfl)]
          rfl) l 0
    | all => rw [if_pos List.head?_cons]; rfl
    | items h1 h2 => rw [if_pos List.head?_cons]; rfl

theorem search_eval_flat : ∀ (r : List (Step × List UInt8)) (j : Json), Texts r →
    (∀ x ∈ r, x.1.deep = false) → FitsIn r j → search j (segsOf r) false = eval (r.map (·.1)) j
  | [], j, _, _, _ => by
    rw [segsOf, search_nil]
    rfl
  | (⟨deep, sel⟩, t) :: r, j, ht, hd, hf => by
    have hsel : SelText sel t := ht _ List.mem_cons_self
    obtain rfl : deep = false := hd _ List.mem_cons_self
    have hfit : ∀ its, sel = .items its → ∀ es, j = .arr es → Fits es.length its := by
      intro its e es e2
      refine hf _ List.mem_cons_self its e [] es ?_
      rw [sub_eq, e2]
      simp
    show search j (t :: segsOf r) false = eval (⟨false, sel⟩ :: r.map (·.1)) j
    rw [eval_flat, search_step_flat hsel _ _ hfit]
    refine flatMap_congr fun x hx => ?_
    rw [search_eval_flat r x.2 (fun x hx => ht x (List.mem_cons_of_mem _ hx))
      (fun x hx => hd x (List.mem_cons_of_mem _ hx))
      (FitsIn.child (fun x hx => hf x (List.mem_cons_of_mem _ hx)) (kids_children _ _ _ hx))]

end Verif.JsonPath
