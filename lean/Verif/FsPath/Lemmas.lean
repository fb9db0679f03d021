import Verif.FsPath.Model
import Verif.Str.SplitProps
/- Specification of paths (names, roots, locations) and lemmas that connect the model with it. -/
namespace Verif.FsPath
open Verif.Str

/-! ### Specification: what a path means -/

/-- The pieces between the separators. -/
def pieces (sep : UInt8 → Bool) : List UInt8 → List (List UInt8)
  | [] => [[]]
  | c :: cs => if sep c then [] :: pieces sep cs else match pieces sep cs with
    | [] => [[c]]
    | x :: xs => (c :: x) :: xs

/-- `/`, on Windows also the backslash. -/
def isSep (win : Bool) (c : UInt8) : Bool := c == 47 || (win && c == 92)

/-- The names in a path. -/
def names (win : Bool) (p : List UInt8) : List (List UInt8) := (pieces (isSep win) p).filter (· ≠ [])

/-- A drive: a character and a colon. -/
def isDrive : List UInt8 → Bool
  | _ :: 58 :: _ => true
  | _ => false

/-- What the path starts from: nothing is the current directory; the empty string is `/`, on Windows `\\`. -/
def rootOf : Bool → List UInt8 → Option (List UInt8)
  | false, p => if p.head? = some 47 then some [] else none
  | true, p => if [92, 92] <+: p then some [] else (names true p).head?.filter isDrive

/-- The names behind the root. -/
def restOf (win : Bool) (p : List UInt8) : List (List UInt8) :=
  if rootOf win p = none ∨ rootOf win p = some [] then names win p else (names win p).tail

/-- A place: the root and the names below it. -/
abbrev Loc := List UInt8 × List (List UInt8)

/-- One name: `.` stays, `..` goes up. -/
def step (l : List (List UInt8)) (n : List UInt8) : List (List UInt8) := if n = [46] then l else if n = [46, 46] then l.dropLast else l ++ [n]

def walk (l : List (List UInt8)) (ns : List (List UInt8)) : List (List UInt8) := ns.foldl step l

/-- Where a path leads from the current directory. -/
def resolve (win : Bool) (cwd : Loc) (p : List UInt8) : Loc :=
  match rootOf win p with
  | some r => (r, walk [] (restOf win p))
  | none => (cwd.1, walk cwd.2 (restOf win p))

/-- The separator of the system. -/
def sepOf (win : Bool) : UInt8 := if win then 92 else 47

/-- The text of a root. -/
def rootText (win : Bool) : Option (List UInt8) → List UInt8
  | none => []
  | some [] => if win then [92, 92] else [47]
  | some (c :: r) => c :: r ++ [sepOf win]

/-- The plain way to write a path. -/
def render (win : Bool) (root : Option (List UInt8)) (ns : List (List UInt8)) : List UInt8 := rootText win root ++ join [sepOf win] ns

/-! ### Names -/

theorem pieces_ne (sep : UInt8 → Bool) (s : List UInt8) : pieces sep s ≠ [] := by
  cases s with
  | nil => simp [pieces]
  | cons c s =>
    unfold pieces
    split
    · simp
    · cases pieces sep s <;> simp

theorem pieces_sep {sep : UInt8 → Bool} {d : UInt8} (hd : sep d = true) (y : List UInt8) : ∀ x, pieces sep (x ++ d :: y) = pieces sep x ++ pieces sep y := by
  intro x
  induction x with
  | nil => simp [pieces, hd]
  | cons c x ih =>
    rw [List.cons_append, pieces, pieces]
    split
    · rw [ih]; rfl
    · rw [ih]
      cases h : pieces sep x with
      | nil => exact absurd h (pieces_ne sep x)
      | cons a r => rfl

theorem pieces_plain {sep : UInt8 → Bool} {x : List UInt8} (h : ∀ c ∈ x, sep c = false) : pieces sep x = [x] := by
  induction x with
  | nil => rfl
  | cons c x ih =>
    unfold pieces
    rw [ih fun y hy => h y (by simp [hy]), if_neg (by rw [h c (by simp)]; decide)]

theorem pieces_congr {f g : UInt8 → Bool} {x : List UInt8} (h : ∀ c ∈ x, f c = g c) : pieces f x = pieces g x := by
  induction x with
  | nil => rfl
  | cons c x ih =>
    unfold pieces
    rw [ih fun y hy => h y (by simp [hy]), h c (by simp)]

theorem pieces_join {sep : UInt8 → Bool} {d : UInt8} (hd : sep d = true) : ∀ {xs : List (List UInt8)}, xs ≠ [] → pieces sep (join [d] xs) = xs.flatMap (pieces sep) := by
  intro xs
  induction xs with
  | nil => intro h; exact absurd rfl h
  | cons x xs ih =>
    intro _
    cases xs with
    | nil => simp [join]
    | cons y ys =>
      rw [join_cons _ _ (by simp), List.append_assoc, List.singleton_append, pieces_sep hd, ih (by simp)]
      rfl

/-- The pieces have no separator and only bytes of the text. -/
theorem pieces_mem {sep : UInt8 → Bool} {s : List UInt8} : ∀ x ∈ pieces sep s, (∀ c ∈ x, c ∈ s ∧ sep c = false) := by
  induction s with
  | nil => simp [pieces]
  | cons a s ih =>
    unfold pieces
    split
    · intro x hx c hc
      rcases List.mem_cons.1 hx with rfl | hx
      · cases hc
      · have := ih x hx c hc; exact ⟨by simp [this.1], this.2⟩
    · rename_i ha
      cases h : pieces sep s with
      | nil => exact absurd h (pieces_ne sep s)
      | cons y ys =>
        rw [h] at ih
        intro x hx c hc
        rcases List.mem_cons.1 hx with rfl | hx
        · rcases List.mem_cons.1 hc with rfl | hc
          · exact ⟨by simp, by simpa using ha⟩
          · have := ih y (by simp) c hc; exact ⟨by simp [this.1], this.2⟩
        · have := ih x (by simp [hx]) c hc; exact ⟨by simp [this.1], this.2⟩

/-- Both separators. -/
def both (c : UInt8) : Bool := c == 47 || c == 92

theorem names_both {win : Bool} {p : List UInt8} (h : win = false → 92 ∉ p) : names win p = (pieces both p).filter (· ≠ []) := by
  unfold names
  rw [pieces_congr]
  intro c hc
  cases win with
  | true => simp [isSep, both]
  | false =>
    have : c ≠ 92 := fun h1 => h rfl (h1 ▸ hc)
    simp [isSep, both, this]

theorem listSplit_spec {d : UInt8} {s : List UInt8} (h0 : 0 ∉ s) (hd : both d = true) : ∃ xs, listSplit d s = some xs ∧ (∀ x ∈ xs, x ≠ [] ∧ d ∉ x ∧ ∀ c ∈ x, c ∈ s) ∧
    xs.flatMap (fun x => (pieces both x).filter (· ≠ [])) = (pieces both s).filter (· ≠ []) := by
  by_cases hs : s = []
  · subst hs
    exact ⟨[], by simp [listSplit, explode], by simp, by simp [pieces]⟩
  · obtain ⟨xs, h1, h2, h3, h4⟩ := explode_correct d s hs h0
    clear h4
    refine ⟨xs.filter (· ≠ []), by simp [listSplit, h1], ?_, ?_⟩
    · intro x hx
      rw [List.mem_filter] at hx
      refine ⟨by simpa using hx.2, h2 x hx.1, ?_⟩
      intro c hc
      have hcd : c ≠ d := fun h => h2 x hx.1 (h ▸ hc)
      rw [← h3]
      clear h1 h2 h3
      induction xs with
      | nil => cases hx.1
      | cons y ys ih =>
        cases ys with
        | nil => simp at hx; simp [join, ← hx.1, hc]
        | cons z zs =>
          rw [join_cons _ _ (by simp)]
          rcases List.mem_cons.1 hx.1 with rfl | h
          · simp [hc]
          · simp [ih ⟨h, hx.2⟩]
    · have hne : xs ≠ [] := by rintro rfl; exact hs h3.symm
      rw [← h3, pieces_join hd hne]
      clear h1 h2 h3 hne
      induction xs with
      | nil => rfl
      | cons y ys ih =>
        rw [List.flatMap_cons, List.filter_append, ← ih]
        by_cases hy : y = []
        · subst hy; simp [pieces]
        · rw [List.filter_cons_of_pos (by simpa using hy), List.flatMap_cons]

theorem splitAll_spec : ∀ (xs out : List (List UInt8)), (∀ x ∈ xs, 0 ∉ x ∧ 47 ∉ x) →
    splitAll xs out = some (out ++ xs.flatMap (fun x => (pieces both x).filter (· ≠ []))) := by
  intro xs
  induction xs with
  | nil => intro out _; simp [splitAll]
  | cons x xs ih =>
    intro out h
    have hx := h x (by simp)
    have ih := fun o => ih o fun y hy => h y (by simp [hy])
    unfold splitAll
    by_cases h0 : x = []
    · rw [if_pos h0, ih, h0]; simp [pieces]
    · rw [if_neg h0]
      obtain ⟨ys, h1, h2, h3⟩ := listSplit_spec (d := 92) hx.1 (by decide)
      rw [h1, Option.bind_some, ih, List.flatMap_cons, ← List.append_assoc]
      congr 2
      congr 1
      rw [← h3]
      have : ∀ y ∈ ys, (pieces both y).filter (· ≠ []) = [y] := by
        intro y hy
        obtain ⟨a, b, c⟩ := h2 y hy
        rw [pieces_plain]
        · simp [a]
        · intro z hz
          have h92 : z ≠ 92 := fun h => b (h ▸ hz)
          have h47 : z ≠ 47 := fun h => hx.2 (h ▸ c z hz)
          simp [both, h92, h47]
      clear h1 h3
      have hys : ys.filter (· ≠ []) = ys := List.filter_eq_self.2 fun y hy => by simpa using (h2 y hy).1
      rw [hys]
      clear hys h2
      induction ys with
      | nil => rfl
      | cons y ys ih2 =>
        rw [List.flatMap_cons, this y (by simp), ← ih2 fun z hz => this z (by simp [hz])]
        rfl

theorem isUnc_iff (p : List UInt8) : isUnc p = true ↔ [92, 92] <+: p := by
  match p with
  | [] => simp [isUnc]
  | [a] => simp [isUnc]
  | a :: b :: r =>
    unfold isUnc
    constructor
    · intro h
      split at h
      · rename_i t e
        rw [e]
        exact ⟨t, rfl⟩
      · cases h
    · rintro ⟨t, h⟩
      simp only [List.cons_append, List.nil_append, List.cons.injEq] at h
      obtain ⟨rfl, rfl, _⟩ := h
      rfl

/-- The components are the root, if there is one, and the names. -/
theorem componentize_eq {win : Bool} {p : List UInt8} (h0 : 0 ∉ p) (hb : win = false → 92 ∉ p) :
    componentize win p = some ((rootOf win p).toList ++ restOf win p) := by
  obtain ⟨xs, h1, h2, h3⟩ := listSplit_spec (d := 47) h0 (by decide)
  have hn := names_both hb
  rw [componentize, h1, Option.bind_some, splitAll_spec xs [] (fun x hx => ⟨fun h => h0 ((h2 x hx).2.2 _ h), (h2 x hx).2.1⟩), Option.map_some, h3, List.nil_append, ← hn]
  congr 1
  cases win with
  | false =>
    have hr : rootOf false p = none ∨ rootOf false p = some [] := by
      rw [rootOf]; split <;> simp
    rw [restOf, if_pos hr, rootOf]
    by_cases h : p.head? = some 47
    · have hne : p ≠ [] := by rintro rfl; simp at h
      rw [if_pos h, if_pos (Or.inl ⟨rfl, by simp [isAbs, hne, h]⟩)]; rfl
    · rw [if_neg h, if_neg]
      · rfl
      · rintro (⟨_, h4⟩ | ⟨h4, _⟩)
        · unfold isAbs at h4
          split at h4
          · cases h4
          · simp [h] at h4
        · cases h4
  | true =>
    by_cases h : [92, 92] <+: p
    · have hr : rootOf true p = some [] := by rw [rootOf, if_pos h]
      rw [restOf, if_pos (Or.inr hr), hr, if_pos (Or.inr ⟨rfl, (isUnc_iff p).2 h⟩)]; rfl
    · have hr : rootOf true p = (names true p).head?.filter isDrive := by rw [rootOf, if_neg h]
      rw [if_neg (by rintro (⟨h4, _⟩ | ⟨_, h4⟩); exact absurd h4 (by decide); exact h ((isUnc_iff p).1 h4)), restOf, hr]
      cases hnm : names true p with
      | nil => rfl
      | cons a r =>
        have ha : a ≠ [] := by
          have : a ∈ names true p := by rw [hnm]; simp
          rw [names, List.mem_filter] at this
          simpa using this.2
        by_cases hd : isDrive a = true
        · simp [Option.filter, hd, ha]
        · simp [Option.filter, hd]

theorem names_prop {win : Bool} {p : List UInt8} : ∀ n ∈ names win p, n ≠ [] ∧ ∀ c ∈ n, c ∈ p ∧ isSep win c = false := by
  intro n hn
  rw [names, List.mem_filter] at hn
  exact ⟨by simpa using hn.2, pieces_mem n hn.1⟩

/-! ### Writing -/

theorem listJoin_eq (s : UInt8) (xs : List (List UInt8)) : listJoin s xs = join [s] xs := by
  match xs with
  | [] => rfl
  | [x] => rfl
  | x :: y :: r => rw [listJoin, join, listJoin_eq s (y :: r)]

/-- A name: not empty, and without separators. -/
structure Name (n : List UInt8) : Prop where
  ne : n ≠ []
  slash : 47 ∉ n
  back : 92 ∉ n
  zero : 0 ∉ n

/-- Components: a root and names behind it, of which none is a drive. -/
structure Comps (win : Bool) (root : Option (List UInt8)) (ns : List (List UInt8)) : Prop where
  root : ∀ r, root = some r → r = [] ∨ (win = true ∧ isDrive r = true ∧ Name r)
  names : ∀ n ∈ ns, Name n ∧ (win = true → isDrive n = false)

theorem isAbs_drive {r : List UInt8} (hn : Name r) : isAbs true r = isDrive r := by
  match r, hn with
  | [], hn => exact absurd rfl hn.ne
  | [a], _ => simp [isAbs, isDrive, isUnc]
  | a :: b :: t, hn =>
    have ha : a ≠ 92 := fun h => hn.back (by simp [h])
    have hu : isUnc (a :: b :: t) = false := by
      rw [Bool.eq_false_iff]
      intro h
      obtain ⟨t', h⟩ := (isUnc_iff _).1 h
      simp only [List.cons_append, List.cons.injEq] at h
      exact ha h.1.symm
    by_cases hb : b = 58
    · subst hb; simp [isAbs, isDrive]
    · have : isDrive (a :: b :: t) = false := by
        unfold isDrive
        split
        · rename_i h; simp only [List.cons.injEq] at h; exact absurd h.2.1 hb
        · rfl
      rw [this]
      simp [isAbs, hu, hb, ha]

theorem filter_names {win : Bool} {root : Option (List UInt8)} {ns : List (List UInt8)} (h : Comps win root ns) : ns.filter (· ≠ []) = ns :=
  List.filter_eq_self.2 fun n hn => by simpa using (h.names n hn).1.ne

/-- What is joined. -/
theorem joinParts_eq {win : Bool} {root : Option (List UInt8)} {ns : List (List UInt8)} (h : Comps win root ns) (hne : root.toList ++ ns ≠ []) :
    joinParts win (root.toList ++ ns) = some (render win root ns) := by
  have hf := filter_names h
  have hcons : ∀ x : List UInt8, ∀ l, l ≠ [] → join [sepOf win] (x :: l) = x ++ [sepOf win] ++ join [sepOf win] l := fun x l hl => join_cons _ _ hl
  cases root with
  | none =>
    cases ns with
    | nil => exact absurd rfl hne
    | cons n ns =>
      have hn := h.names n (by simp)
      have hf2 : ns.filter (· ≠ []) = ns := by
        have := hf
        rw [List.filter_cons_of_pos (by simpa using hn.1.ne)] at this
        exact (List.cons.inj this).2
      show joinParts win (n :: ns) = _
      rw [joinParts, hf2]
      rw [if_neg (fun h => hn.1.ne h.2)]
      cases win with
      | false => simp [render, rootText, listJoin_eq, sysSep, sepOf]
      | true =>
        have : isAbs true n = false := by rw [isAbs_drive hn.1, hn.2 rfl]
        simp [render, rootText, listJoin_eq, sysSep, sepOf, hn.1.ne, this]
  | some r =>
    show joinParts win (r :: ns) = _
    rw [joinParts, hf]
    rcases h.root r rfl with rfl | ⟨rfl, hd, hn⟩
    · cases ns with
      | nil => cases win <;> rfl
      | cons n ns =>
        rw [if_neg (by simp)]
        cases win with
        | false => simp [render, rootText, listJoin_eq, sysSep, sepOf, join]
        | true => simp [render, rootText, listJoin_eq, sysSep, sepOf, join]
    · rw [if_neg (fun h => hn.ne h.2)]
      obtain ⟨a, t, rfl⟩ : ∃ a t, r = a :: t := by
        cases r with
        | nil => exact absurd rfl hn.ne
        | cons a t => exact ⟨a, t, rfl⟩
      cases ns with
      | nil => simp [render, rootText, listJoin_eq, sysSep, sepOf, join, isAbs_drive hn, hd]
      | cons n ns => simp [render, rootText, listJoin_eq, sysSep, sepOf, join]

theorem sepOf_sep (win : Bool) : isSep win (sepOf win) = true := by cases win <;> decide

theorem name_sep {n : List UInt8} (h : Name n) (win : Bool) : ∀ c ∈ n, isSep win c = false := by
  intro c hc
  have h1 : c ≠ 47 := fun e => h.slash (e ▸ hc)
  have h2 : c ≠ 92 := fun e => h.back (e ▸ hc)
  simp [isSep, h1, h2]

theorem names_join {win : Bool} {ns : List (List UInt8)} (h : ∀ n ∈ ns, Name n) : names win (join [sepOf win] ns) = ns := by
  cases hns : ns with
  | nil => rfl
  | cons a r =>
    rw [← hns, names, pieces_join (sepOf_sep win) (by simp [hns])]
    clear hns
    induction ns with
    | nil => rfl
    | cons n ns ih =>
      have hn := h n (by simp)
      rw [List.flatMap_cons, List.filter_append, ih fun x hx => h x (by simp [hx]), pieces_plain (name_sep hn win)]
      simp [hn.ne]

theorem names_sep_append {win : Bool} {d : UInt8} (hd : isSep win d = true) (x y : List UInt8) : names win (x ++ d :: y) = names win x ++ names win y := by
  rw [names, pieces_sep hd, List.filter_append]; rfl

theorem names_render {win : Bool} {root : Option (List UInt8)} {ns : List (List UInt8)} (h : Comps win root ns) :
    names win (render win root ns) = (root.toList.filter (· ≠ [])) ++ ns := by
  have hj := names_join (win := win) fun n hn => (h.names n hn).1
  cases root with
  | none => simpa [render, rootText] using hj
  | some r =>
    rcases h.root r rfl with rfl | ⟨rfl, hd, hn⟩
    · have e0 : ∀ x : List UInt8, names win (sepOf win :: x) = names win x := fun x => by
        have := names_sep_append (sepOf_sep win) [] x
        rw [List.nil_append] at this
        rw [this]; rfl
      cases win with
      | false => exact (e0 _).trans hj
      | true => exact (e0 _).trans ((e0 _).trans hj)
    · obtain ⟨a, t, rfl⟩ : ∃ a t, r = a :: t := by
        cases r with
        | nil => exact absurd rfl hn.ne
        | cons a t => exact ⟨a, t, rfl⟩
      have : render true (some (a :: t)) ns = (a :: t) ++ 92 :: join [sepOf true] ns := by simp [render, rootText, sepOf]
      rw [this, names_sep_append (by decide), hj, names, pieces_plain (name_sep hn true)]
      simp

theorem join_head {d : UInt8} {ns : List (List UInt8)} (h : ∀ n ∈ ns, Name n) : ∀ c, (join [d] ns).head? = some c → c ≠ 47 ∧ c ≠ 92 := by
  intro c hc
  cases ns with
  | nil => simp [join] at hc
  | cons n ns =>
    have hn := h n (by simp)
    have : (join [d] (n :: ns)).head? = n.head? := by
      cases ns with
      | nil => rfl
      | cons m ms =>
        rw [join_cons _ _ (by simp)]
        cases n with
        | nil => exact absurd rfl hn.ne
        | cons a t => rfl
    rw [this] at hc
    have := List.mem_of_head? hc
    exact ⟨fun e => hn.slash (e ▸ this), fun e => hn.back (e ▸ this)⟩

theorem root_render {win : Bool} {root : Option (List UInt8)} {ns : List (List UInt8)} (h : Comps win root ns) : rootOf win (render win root ns) = root := by
  have hnm := names_render h
  have hh := join_head (d := sepOf win) fun n hn => (h.names n hn).1
  cases win with
  | false =>
    cases root with
    | none =>
      rw [rootOf, if_neg]
      intro h1
      exact (hh _ h1).1 rfl
    | some r =>
      rcases h.root r rfl with rfl | ⟨h1, _⟩
      · simp [rootOf, render, rootText]
      · cases h1
  | true =>
    cases root with
    | none =>
      rw [rootOf, if_neg]
      · rw [hnm]
        simp only [Option.toList_none, List.filter_nil, List.nil_append]
        cases ns with
        | nil => rfl
        | cons n ns => simp [Option.filter, (h.names n (by simp)).2 rfl]
      · rintro ⟨t, h1⟩
        refine (hh 92 ?_).2 rfl
        simp only [render, rootText, List.nil_append] at h1
        rw [← h1]; rfl
    | some r =>
      rcases h.root r rfl with rfl | ⟨_, hd, hn⟩
      · rw [rootOf, if_pos ⟨_, rfl⟩]
      · rw [rootOf, if_neg]
        · rw [hnm]
          simp [Option.filter, hd, hn.ne]
        · rintro ⟨t, h1⟩
          cases r with
          | nil => exact hn.ne rfl
          | cons a r =>
            simp only [render, rootText, List.cons_append, List.cons.injEq] at h1
            exact hn.back (by simp [h1.1])

theorem rest_render {win : Bool} {root : Option (List UInt8)} {ns : List (List UInt8)} (h : Comps win root ns) : restOf win (render win root ns) = ns := by
  rw [restOf, root_render h, names_render h]
  cases root with
  | none => simp
  | some r =>
    rcases h.root r rfl with rfl | ⟨_, hd, hn⟩
    · simp
    · simp [hn.ne]

end Verif.FsPath
