import Verif.SkipList.Take
/- Property C88: the sorted linked list is a sorted sequence of nodes whatever the history and the random numbers. -/
namespace Verif.SkipList

variable {α : Type _}

/-! ### Specification

A list is a sequence of nodes (handle, value).  A handle names a node as a `M_llist_node_t *` does. -/

inductive Op (α : Type _) where
  /-- `k` is the random number of the insertion. -/
  | insert (v : α) (k : Nat)
  | find (v : α) (ptr : Bool)
  | count (v : α) (ptr : Bool)
  | removeVal (v : α) (ptr all : Bool)
  | removeDuplicates (ptr : Bool)
  | take (p : Nat)
  | len
  | first
  | last
  | next (p : Nat)
  | prev (p : Nat)
  | val (p : Nat)
  | forward
  | backward

inductive Res (α : Type _) where
  | node (p : Option Nat)
  | val (v : α)
  | num (n : Nat)
  | vals (l : List α)
  | unit
deriving DecidableEq

/-- Two values match: they are the same pointer, or the comparator finds them equal. -/
def Matches [DecidableEq α] (cmp : α → α → Int) (ptr : Bool) (a b : α) : Bool := if ptr then decide (a = b) else decide (cmp a b = 0)

/-- What a call returns and how it changes the sequence. -/
def Spec [DecidableEq α] (cmp : α → α → Int) (s : List (Nat × α)) : Op α → Res α → List (Nat × α) → Prop
  | .insert v _, r, s' => ∃ n A B, n ∉ s.map (·.1) ∧ r = .node (some n) ∧ s = A ++ B ∧ s' = A ++ (n, v) :: B ∧
      (∀ a ∈ A, cmp a.2 v ≤ 0) ∧ ∀ b ∈ B, cmp v b.2 ≤ 0
  | .find v ptr, r, s' => s' = s ∧ r = .node ((s.find? fun p => Matches cmp ptr p.2 v).map (·.1))
  | .count v ptr, r, s' => s' = s ∧ r = .num (s.countP fun p => Matches cmp ptr p.2 v)
  | .removeVal v ptr true, r, s' => r = .num (s.countP fun p => Matches cmp ptr p.2 v) ∧ s' = s.filter fun p => !Matches cmp ptr p.2 v
  | .removeVal v ptr false, r, s' => r = .num (if s.any fun p => Matches cmp ptr p.2 v then 1 else 0) ∧ s' = s.eraseP fun p => Matches cmp ptr p.2 v
  | .removeDuplicates ptr, r, s' => r = .unit ∧ s'.Sublist s ∧
      ∀ A x B, s = A ++ x :: B → (x ∈ s' ↔ ∀ a ∈ A, Matches cmp ptr a.2 x.2 = false)
  | .take p, r, s' => ∃ A w B, s = A ++ (p, w) :: B ∧ r = .val w ∧ s' = A ++ B
  | .len, r, s' => s' = s ∧ r = .num s.length
  | .first, r, s' => s' = s ∧ r = .node (s.head?.map (·.1))
  | .last, r, s' => s' = s ∧ r = .node (s.getLast?.map (·.1))
  | .next p, r, s' => ∃ A w B, s = A ++ (p, w) :: B ∧ s' = s ∧ r = .node (B.head?.map (·.1))
  | .prev p, r, s' => ∃ A w B, s = A ++ (p, w) :: B ∧ s' = s ∧ r = .node (A.getLast?.map (·.1))
  | .val p, r, s' => ∃ A w B, s = A ++ (p, w) :: B ∧ s' = s ∧ r = .val w
  | .forward, r, s' => s' = s ∧ r = .vals (s.map (·.2))
  | .backward, r, s' => s' = s ∧ r = .vals (s.map (·.2)).reverse

inductive SpecRun [DecidableEq α] (cmp : α → α → Int) : List (Nat × α) → List (Op α) → List (Res α) → List (Nat × α) → Prop
  | nil (s) : SpecRun cmp s [] [] s
  | cons {s s' s'' op ops r rs} : Spec cmp s op r s' → SpecRun cmp s' ops rs s'' → SpecRun cmp s (op :: ops) (r :: rs) s''

/-- What the caller must respect: handles name nodes of the list. -/
def Ok (s : List (Nat × α)) : Op α → Prop
  | .take p | .next p | .prev p | .val p => p ∈ s.map (·.1)
  | _ => True

/-! ### Execution of the model -/

def step [DecidableEq α] (cmp : α → α → Int) (s : S α) : Op α → Option (Res α × S α)
  | .insert v k => (insert cmp s v k).map fun r => (.node (some r.1), r.2)
  | .find v ptr => (find cmp s v ptr).map fun r => (.node r, s)
  | .count v ptr => (matchOp cmp s v ptr true false).map fun r => (.num r.1, r.2)
  | .removeVal v ptr all => (matchOp cmp s v ptr all true).map fun r => (.num r.1, r.2)
  | .removeDuplicates ptr => (removeDuplicates cmp s ptr).map fun s => (.unit, s)
  | .take p => (takeNode s p).map fun r => (.val r.1, r.2)
  | .len => some (.num s.elements, s)
  | .first => (getHead s 0).map fun r => (.node r, s)
  | .last => some (.node s.tail, s)
  | .next p => (getNext s p 0).map fun r => (.node r, s)
  | .prev p => (getPrev s p 0).map fun r => (.node r, s)
  | .val p => (getVal s p).map fun v => (.val v, s)
  | .forward => (walk s).map fun r => (.vals r, s)
  | .backward => (walkBack s).map fun r => (.vals r, s)

def run [DecidableEq α] (cmp : α → α → Int) (s : S α) : List (Op α) → Option (List (Res α) × S α)
  | [] => some ([], s)
  | op :: ops =>
    match step cmp s op with
    | none => none
    | some (r, s) => (run cmp s ops).map fun (rs, s) => (r :: rs, s)

/-! ### Proof -/

/-- What the specification sees of an entry. -/
def pub (e : E α) : Nat × α := (e.1, e.2.1)

structure Abs (cmp : α → α → Int) (s : S α) (l : List (E α)) (t : List (Nat × α)) : Prop where
  rep : Rep s l
  sorted : Sorted cmp l
  pub : t = l.map pub

theorem pub_ids (l : List (E α)) : (l.map pub).map (·.1) = ids l := by simp [ids, pub, List.map_map, Function.comp_def]

theorem hd_head (l : List (E α)) : hd l none = (l.map pub).head?.map (·.1) := by cases l <;> simp [pub]
theorem lst_last (l : List (E α)) : lst none l = (l.map pub).getLast?.map (·.1) := by
  rcases List.eq_nil_or_concat l with rfl | ⟨A, a, rfl⟩
  · rfl
  · simp [pub]

theorem split_of_mem {l : List (E α)} {p : Nat} (h : p ∈ ids l) : ∃ A e B, l = A ++ e :: B ∧ e.1 = p := by
  obtain ⟨e, he, rfl⟩ := List.mem_map.1 h
  obtain ⟨A, B, h⟩ := List.append_of_mem he
  exact ⟨A, e, B, h, rfl⟩

theorem hit_pub [DecidableEq α] (cmp : α → α → Int) (v : α) (ptr : Bool) : (fun p : Nat × α => Matches cmp ptr p.2 v) ∘ pub = hit cmp v ptr := rfl
theorem same_pub [DecidableEq α] (cmp : α → α → Int) (ptr : Bool) (a b : E α) : Matches cmp ptr (pub a).2 (pub b).2 = same cmp ptr a b := rfl

theorem sim_step [DecidableEq α] {cmp : α → α → Int} (hc : LawfulCmp cmp) {s : S α} {l t} (ha : Abs cmp s l t) (op : Op α) (hok : Ok t op) :
    ∃ r s' l' t', step cmp s op = some (r, s') ∧ Spec cmp t op r t' ∧ Abs cmp s' l' t' := by
  obtain ⟨hr, hs, rfl⟩ := ha
  have keep : Abs cmp s l (l.map pub) := ⟨hr, hs, rfl⟩
  cases op with
  | insert v k =>
    obtain ⟨A, B, lv, s', h1, h2, h3, h4, h5, h6⟩ := insert_ok hc hr hs v k
    subst h1
    refine ⟨_, s', _, _, by simp only [step, h5, Option.map_some] <;> rfl, ⟨s.fresh, A.map pub, B.map pub, by rw [pub_ids]; exact h4, rfl, by simp, rfl, ?_, ?_⟩,
      h6, ?_, by simp [pub]⟩
    · intro a ha
      obtain ⟨x, hx, rfl⟩ := List.mem_map.1 ha
      exact h2 x hx
    · intro a ha
      obtain ⟨x, hx, rfl⟩ := List.mem_map.1 ha
      exact h3 x hx
    · obtain ⟨k1, k2, k3⟩ := List.pairwise_append.1 hs
      refine List.pairwise_append.2 ⟨k1, List.pairwise_cons.2 ⟨h3, k2⟩, ?_⟩
      intro a ha b hb
      rcases List.mem_cons.1 hb with rfl | hb
      · exact h2 a ha
      · exact k3 a ha b hb
  | find v ptr =>
    refine ⟨_, s, l, _, by simp only [step, find_ok hc hr hs, Option.map_some] <;> rfl, ⟨rfl, ?_⟩, keep⟩
    rw [List.find?_map, hit_pub]
    rw [Option.map_map]; rfl
  | count v ptr =>
    refine ⟨_, s, l, _, by simp only [step, count_ok hc hr hs, Option.map_some] <;> rfl, ⟨rfl, ?_⟩, keep⟩
    rw [List.countP_map, hit_pub]
  | removeVal v ptr all =>
    obtain ⟨s', h1, h2⟩ := remove_ok hc hr hs v ptr all
    cases all with
    | true =>
      simp only [↓reduceIte] at h1 h2
      refine ⟨_, s', _, _, by simp only [step, h1, Option.map_some] <;> rfl, ⟨?_, rfl⟩, h2, sorted_sub hs List.filter_sublist, ?_⟩
      · rw [List.countP_map, hit_pub]
      · rw [List.filter_map]; rfl
    | false =>
      simp only [Bool.false_eq_true, ↓reduceIte] at h1 h2
      refine ⟨_, s', _, _, by simp only [step, h1, Option.map_some] <;> rfl, ⟨?_, rfl⟩, h2, sorted_sub hs List.eraseP_sublist, ?_⟩
      · rw [List.any_map, hit_pub]
      · rw [List.eraseP_map, hit_pub]
  | removeDuplicates ptr =>
    obtain ⟨s', h1, h2⟩ := removeDuplicates_ok hc hr hs ptr
    have hsub := dd_sub cmp ptr (l.length + 1) l
    refine ⟨_, s', _, _, by simp only [step, h1, Option.map_some] <;> rfl, ⟨rfl, hsub.map pub, ?_⟩, h2, sorted_sub hs hsub, rfl⟩
    intro A x B h
    obtain ⟨A', l2, rfl, rfl, h3⟩ := List.map_eq_append_iff.1 h
    obtain ⟨e, B', rfl, rfl, rfl⟩ := List.map_eq_cons_iff.1 h3
    have hm := dd_mem hc ptr ((A' ++ e :: B').length + 1) (A' ++ e :: B') (by omega) hr.nodup A' e B' rfl
    have hinj : pub e ∈ (dd cmp ptr ((A' ++ e :: B').length + 1) (A' ++ e :: B')).map pub ↔ e ∈ dd cmp ptr ((A' ++ e :: B').length + 1) (A' ++ e :: B') := by
      constructor
      · intro hmem
        obtain ⟨f, hf, hfe⟩ := List.mem_map.1 hmem
        have hfl := hsub.subset hf
        have hcf := hr.cells f hfl
        have hce := hr.cells e (by simp)
        simp only [pub, Prod.mk.injEq] at hfe
        rw [hfe.1, hce] at hcf
        have : f = e := Prod.ext hfe.1 (Option.some.inj hcf).symm
        exact this ▸ hf
      · exact List.mem_map_of_mem
    rw [hinj, hm]
    constructor
    · intro h a ha
      obtain ⟨x, hx, rfl⟩ := List.mem_map.1 ha
      exact h x hx
    · intro h a ha
      exact h (pub a) (List.mem_map_of_mem ha)
  | take p =>
    obtain ⟨A, e, B, rfl, rfl⟩ := split_of_mem (by rw [← pub_ids]; exact hok)
    obtain ⟨s', h1, h2⟩ := takeNode_ok hr
    exact ⟨_, s', A ++ B, _, by simp only [step, h1, Option.map_some] <;> rfl, ⟨A.map pub, e.2.1, B.map pub, by simp [pub], rfl, rfl⟩, h2, sorted_sub hs (by simp), by simp⟩
  | len => exact ⟨_, s, l, _, rfl, ⟨rfl, by rw [hr.len]; simp⟩, keep⟩
  | first => exact ⟨_, s, l, _, by simp only [step, hr.lay0.head, Option.map_some] <;> rfl, ⟨rfl, by rw [hd_head]⟩, keep⟩
  | last => exact ⟨_, s, l, _, rfl, ⟨rfl, by rw [hr.tail, lst_last]⟩, keep⟩
  | next p =>
    obtain ⟨A, e, B, rfl, rfl⟩ := split_of_mem (by rw [← pub_ids]; exact hok)
    exact ⟨_, s, _, _, by simp only [step, hr.lay0.next rfl, Option.map_some] <;> rfl, ⟨A.map pub, e.2.1, B.map pub, by simp [pub], rfl, by rw [hd_head]⟩, keep⟩
  | prev p =>
    obtain ⟨A, e, B, rfl, rfl⟩ := split_of_mem (by rw [← pub_ids]; exact hok)
    exact ⟨_, s, _, _, by simp only [step, hr.lay0.prev rfl, Option.map_some] <;> rfl, ⟨A.map pub, e.2.1, B.map pub, by simp [pub], rfl, by rw [lst_last]⟩, keep⟩
  | val p =>
    obtain ⟨A, e, B, rfl, rfl⟩ := split_of_mem (by rw [← pub_ids]; exact hok)
    exact ⟨_, s, _, _, by simp only [step, hr.lay0.val (e := e) (by simp), Option.map_some] <;> rfl, ⟨A.map pub, e.2.1, B.map pub, by simp [pub], rfl, rfl⟩, keep⟩
  | forward => exact ⟨_, s, l, _, by simp only [step, walk_ok hr, Option.map_some] <;> rfl, ⟨rfl, by simp [pub]⟩, keep⟩
  | backward => exact ⟨_, s, l, _, by simp only [step, walkBack_ok hr, Option.map_some] <;> rfl, ⟨rfl, by simp [pub]⟩, keep⟩

theorem create_rep : Rep (create : S α) [] := by
  refine ⟨List.nodup_nil, by simp, fun _ _ => rfl, by simp, by simp [create], ?_, rfl, rfl, by simp [ids]⟩
  intro i _
  exact ⟨rfl, trivial⟩

theorem sim_run [DecidableEq α] {cmp : α → α → Int} (hc : LawfulCmp cmp) (ops : List (Op α)) : ∀ {s : S α} {l t}, Abs cmp s l t →
    (∃ rs s' l' t', run cmp s ops = some (rs, s') ∧ SpecRun cmp t ops rs t' ∧ Abs cmp s' l' t') ∨
    (∃ pre op post rs s' t', ops = pre ++ op :: post ∧ run cmp s pre = some (rs, s') ∧ SpecRun cmp t pre rs t' ∧ ¬ Ok t' op) := by
  induction ops with
  | nil => intro s l t hr; exact Or.inl ⟨[], s, l, t, rfl, .nil t, hr⟩
  | cons op ops ih =>
    intro s l t hr
    by_cases hok : Ok t op
    · obtain ⟨r, s1, l1, t1, h1, h2, h3⟩ := sim_step hc hr op hok
      rcases ih h3 with ⟨rs, s', l', t', k1, k2, k3⟩ | ⟨pre, op', post, rs, s', t', k1, k2, k3, k4⟩
      · exact Or.inl ⟨r :: rs, s', l', t', by simp [run, h1, k1], .cons h2 k2, k3⟩
      · exact Or.inr ⟨op :: pre, op', post, r :: rs, s', t', by rw [k1]; rfl, by simp [run, h1, k2], .cons h2 k3, k4⟩
    · exact Or.inr ⟨[], op, ops, [], s, t, rfl, rfl, .nil t, hok⟩

theorem Abs.order {cmp : α → α → Int} {s : S α} {l t} (h : Abs cmp s l t) : (t.map (·.2)).Pairwise fun a b => cmp a b ≤ 0 := by
  rw [h.pub, List.map_map]
  exact List.pairwise_map.2 h.sorted

/-- C88: every history of calls on a sorted list, with whatever random numbers, behaves as on a sequence of nodes whose values are in the
order of the comparator: no dead node and no link behind the last level of a node is touched, the search finds the first match,
both walks meet all values - unless the caller uses a handle of a node that is not in the list.  Partial: a new value goes somewhere
among those that are equal to it, not behind them as documented (`stable_fails`). -/
theorem skiplist_correct_partial [DecidableEq α] {cmp : α → α → Int} (hc : LawfulCmp cmp) (ops : List (Op α)) :
    (∃ rs s' t, run cmp create ops = some (rs, s') ∧ SpecRun cmp [] ops rs t ∧ (t.map (·.2)).Pairwise (fun a b => cmp a b ≤ 0) ∧
      (∃ s'', run cmp s' [.forward, .backward, .len] = some ([.vals (t.map (·.2)), .vals (t.map (·.2)).reverse, .num t.length], s'')) ∧
      (∀ p, (s'.cell p).isSome ↔ p ∈ t.map (·.1))) ∨
    (∃ pre op post rs s' t, ops = pre ++ op :: post ∧ run cmp create pre = some (rs, s') ∧ SpecRun cmp [] pre rs t ∧ ¬ Ok t op) := by
  rcases sim_run hc ops (s := create) (l := []) (t := []) ⟨create_rep, List.Pairwise.nil, rfl⟩ with ⟨rs, s', l', t', h1, h2, h3⟩ | h
  · refine Or.inl ⟨rs, s', t', h1, h2, h3.order, ?_, ?_⟩
    · obtain ⟨r1, s1, l1, t1, k1, k2, k3⟩ := sim_step hc h3 .forward trivial
      obtain ⟨r2, s2, l2, t2, j1, j2, j3⟩ := sim_step hc k3 .backward trivial
      obtain ⟨r3, s3, l3, t3, m1, m2, m3⟩ := sim_step hc j3 .len trivial
      obtain ⟨rfl, rfl⟩ := k2
      obtain ⟨rfl, rfl⟩ := j2
      obtain ⟨rfl, rfl⟩ := m2
      exact ⟨s3, by simp [run, k1, j1, m1]⟩
    · intro p
      rw [h3.pub, pub_ids]
      constructor
      · intro h
        by_cases hp : p ∈ ids l'
        · exact hp
        · rw [h3.rep.dead p hp] at h; cases h
      · intro hp
        obtain ⟨e, he, rfl⟩ := List.mem_map.1 hp
        rw [h3.rep.cells e he]; rfl
  · exact Or.inr h

/-- The walks of a run, for the examples. -/
def valsOf [DecidableEq α] (cmp : α → α → Int) (ops : List (Op α)) : Option (List (Res α)) := (run cmp create ops).map (·.1)

/-- A list with nodes on several levels, a search, a count, a removal of all matches and of duplicates. -/
example : valsOf natCmp [.insert 5 0, .insert 3 6, .insert 8 1, .insert 3 0, .insert 5 2, .insert 1 1, .forward, .backward, .find 5 false, .count 3 false,
    .removeVal 5 false true, .insert 4 9, .removeDuplicates false, .forward, .take 1, .len, .first, .last] =
    some [.node (some 0), .node (some 1), .node (some 2), .node (some 3), .node (some 4), .node (some 5), .vals [1, 3, 3, 5, 5, 8], .vals [8, 5, 5, 3, 3, 1],
      .node (some 4), .num 2, .num 2, .node (some 6), .unit, .vals [1, 3, 4, 8], .val 3, .num 3, .node (some 5), .node (some 2)] := by decide +kernel

/-- Its handles are all of nodes in the list, so the first case of the theorem applies. -/
example : Ok [(1, 3), (6, 4)] (.take 1 : Op Nat) := by simp [Ok]

/-- The handle of a node that was removed: the model does not give a result. -/
example : valsOf natCmp [.insert 5 0, .take 0, .next 0] = none := by decide +kernel

/-! ### Stability -/

/-- What the documentation says (`include/mstdlib/base/m_llist.h:59-66`): "Sorting is stable.  If an element with a matching value is
already in the list then it will be inserted after." -/
def Stable [DecidableEq α] (cmp : α → α → Int) : Prop :=
  ∀ (ops : List (Op α)) (v : α) (k : Nat) (rs : List (Res α)) (s : S α), run cmp create ops = some (rs, s) →
    ∀ before, walk s = some before → ∀ n s', insert cmp s v k = some (n, s') → ∀ after, walk s' = some after →
    ∀ A B, before = A ++ B → (∀ a ∈ A, cmp a v ≤ 0) → (∀ b ∈ B, cmp v b < 0) → after = A ++ v :: B

/-- The third of three equal values goes between the other two. -/
theorem stable_fails : ¬ Stable keyCmp := by
  intro h
  have hrun : (run keyCmp create [.insert (1, 1) 0, .insert (1, 2) 0]).isSome = true := by decide +kernel
  obtain ⟨⟨rs, s⟩, hs⟩ := Option.isSome_iff_exists.1 hrun
  have hw : ((run keyCmp create [.insert (1, 1) 0, .insert (1, 2) 0]).bind fun r => walk r.2) = some [(1, 1), (1, 2)] := by decide +kernel
  have hi : (((run keyCmp create [.insert (1, 1) 0, .insert (1, 2) 0]).bind fun r => insert keyCmp r.2 (1, 3) 0).bind fun r => walk r.2) = some [(1, 1), (1, 3), (1, 2)] := by
    decide +kernel
  rw [hs] at hw hi
  simp only [Option.bind_some] at hw hi
  cases hins : insert keyCmp s (1, 3) 0 with
  | none => rw [hins] at hi; cases hi
  | some r =>
    rw [hins] at hi
    have := h _ (1, 3) 0 rs s hs _ hw r.1 r.2 hins _ hi [(1, 1), (1, 2)] [] rfl (by decide) (by simp)
    simp at this

/-! ### Copies and merges -/

/-- The values of `src` are added to `dest` one after the other, if `skip` only those without a match. -/
inductive Merged [DecidableEq α] (cmp : α → α → Int) (skip ptr : Bool) : List α → List α → List α → Prop
  | nil (dest) : Merged cmp skip ptr dest [] dest
  | skip {dest v src out} : skip = true → (∃ d ∈ dest, Matches cmp ptr d v = true) → Merged cmp skip ptr dest src out → Merged cmp skip ptr dest (v :: src) out
  | add {dest v src out} : (skip = true → ∀ d ∈ dest, Matches cmp ptr d v = false) → Merged cmp skip ptr (v :: dest) src out →
      Merged cmp skip ptr dest (v :: src) out

theorem Merged.perm [DecidableEq α] {cmp : α → α → Int} {skip ptr : Bool} {d src out : List α} (h : Merged cmp skip ptr d src out) :
    ∀ {d'}, List.Perm d d' → ∃ out', Merged cmp skip ptr d' src out' ∧ List.Perm out out' := by
  induction h with
  | nil d => intro d' hp; exact ⟨d', .nil d', hp⟩
  | skip h1 h2 _ ih =>
    intro d' hp
    obtain ⟨out', h3, h4⟩ := ih hp
    obtain ⟨x, hx, hm⟩ := h2
    exact ⟨out', .skip h1 ⟨x, hp.mem_iff.1 hx, hm⟩ h3, h4⟩
  | add h1 _ ih =>
    intro d' hp
    obtain ⟨out', h3, h4⟩ := ih (hp.cons _)
    exact ⟨out', .add (fun h x hx => h1 h x (hp.mem_iff.2 hx)) h3, h4⟩

theorem insertVals_ok [DecidableEq α] {cmp : α → α → Int} (hc : LawfulCmp cmp) (skip ptr : Bool) (vs : List α) : ∀ (ks : List Nat) {s : S α} {l t},
    Abs cmp s l t → ∃ s' l' t' out, insertVals cmp skip ptr vs ks s = some s' ∧ Abs cmp s' l' t' ∧ Merged cmp skip ptr (t.map (·.2)) vs out ∧
      List.Perm (t'.map (·.2)) out := by
  induction vs with
  | nil => intro ks s l t ha; exact ⟨s, l, t, _, rfl, ha, .nil _, .refl _⟩
  | cons v vs ih =>
    intro ks s l t ha
    have hfind : ∃ r, step cmp s (.find v ptr) = some (.node r, s) ∧ find cmp s v ptr = some r ∧ r = (t.find? fun p => Matches cmp ptr p.2 v).map (·.1) := by
      obtain ⟨r, s1, l1, t1, h1, h2, _⟩ := sim_step hc ha (.find v ptr) trivial
      obtain ⟨rfl, rfl⟩ := h2
      simp only [step] at h1
      cases hf : find cmp s v ptr with
      | none => rw [hf] at h1; cases h1
      | some q =>
        rw [hf] at h1
        simp only [Option.map_some, Option.some.injEq, Prod.mk.injEq, Res.node.injEq] at h1
        exact ⟨q, by simp [step, hf], rfl, h1.1⟩
    obtain ⟨q, _, hf, hq⟩ := hfind
    have add : (skip = true → ∀ d ∈ t.map (·.2), Matches cmp ptr d v = false) → ∃ s' l' t' out,
        ((insert cmp s v (ks.headD 0)).bind fun r => insertVals cmp skip ptr vs ks.tail r.2) = some s' ∧ Abs cmp s' l' t' ∧
        Merged cmp skip ptr (t.map (·.2)) (v :: vs) out ∧ List.Perm (t'.map (·.2)) out := by
      intro hno
      obtain ⟨r, s1, l1, t1, h1, ⟨n, A, B, _, rfl, h3, h4, _⟩, h5⟩ := sim_step hc ha (.insert v (ks.headD 0)) trivial
      simp only [step] at h1
      cases hi : insert cmp s v (ks.headD 0) with
      | none => rw [hi] at h1; cases h1
      | some r =>
        rw [hi] at h1
        simp only [Option.map_some, Option.some.injEq, Prod.mk.injEq] at h1
        obtain ⟨s', l', t', out, g1, g2, g3, g4⟩ := ih ks.tail h5
        have hp : List.Perm (t1.map (·.2)) (v :: t.map (·.2)) := by
          rw [h4, h3]; simp only [List.map_append, List.map_cons]; exact List.perm_middle
        obtain ⟨out', g5, g6⟩ := g3.perm hp
        exact ⟨s', l', t', out', by simp only [Option.bind_some, h1.2]; exact g1, g2, .add hno g5, g4.trans g6⟩
    rw [insertVals]
    cases skip with
    | false => simpa using add (by simp)
    | true =>
      simp only [↓reduceIte, hf, Option.bind_some]
      cases hfi : t.find? fun p => Matches cmp ptr p.2 v with
      | none =>
        rw [hfi] at hq
        subst hq
        simp only [Option.map_none, Option.isSome_none, Bool.false_eq_true, ↓reduceIte]
        refine add fun _ d hd => ?_
        obtain ⟨p, hp, rfl⟩ := List.mem_map.1 hd
        have := List.find?_eq_none.1 hfi p hp
        simpa using this
      | some p =>
        rw [hfi] at hq
        subst hq
        simp only [Option.map_some, Option.isSome_some, ↓reduceIte]
        obtain ⟨s', l', t', out, g1, g2, g3, g4⟩ := ih ks ha
        exact ⟨s', l', t', out, g1, g2, .skip rfl ⟨p.2, List.mem_map_of_mem (List.mem_of_find?_eq_some hfi), by simpa using List.find?_some hfi⟩ g3, g4⟩

/-- A list reached by some history. -/
def Reached [DecidableEq α] (cmp : α → α → Int) (s : S α) (t : List (Nat × α)) : Prop :=
  ∃ ops rs, run cmp create ops = some (rs, s) ∧ SpecRun cmp [] ops rs t ∧
    ¬ ∃ pre op post rs' s' t', ops = pre ++ op :: post ∧ run cmp create pre = some (rs', s') ∧ SpecRun cmp [] pre rs' t' ∧ ¬ Ok t' op

theorem Reached.abs [DecidableEq α] {cmp : α → α → Int} (hc : LawfulCmp cmp) {s : S α} {t} (h : Reached cmp s t) : ∃ l t', Abs cmp s l t' := by
  obtain ⟨ops, rs, h1, h2, h3⟩ := h
  rcases sim_run hc ops (s := create) (l := []) (t := []) ⟨create_rep, List.Pairwise.nil, rfl⟩ with ⟨rs', s', l', t', k1, k2, k3⟩ | h
  · rw [h1] at k1
    cases k1
    exact ⟨l', t', k3⟩
  · exact absurd h h3

/-- What can be said about a list from outside: a walk gives the values `vs`, in order, and every further history behaves as on such a
sequence. -/
def Behaves [DecidableEq α] (cmp : α → α → Int) (s : S α) (vs : List α) : Prop :=
  walk s = some vs ∧ (vs.Pairwise fun a b => cmp a b ≤ 0) ∧ ∃ t, t.map (·.2) = vs ∧
    ∀ ops, (∃ rs s' t', run cmp s ops = some (rs, s') ∧ SpecRun cmp t ops rs t') ∨
      (∃ pre op post rs s' t', ops = pre ++ op :: post ∧ run cmp s pre = some (rs, s') ∧ SpecRun cmp t pre rs t' ∧ ¬ Ok t' op)

theorem Abs.behaves [DecidableEq α] {cmp : α → α → Int} (hc : LawfulCmp cmp) {s : S α} {l t} (h : Abs cmp s l t) : Behaves cmp s (t.map (·.2)) := by
  refine ⟨by rw [walk_ok h.rep, h.pub]; simp [SkipList.pub], h.order, t, rfl, fun ops => ?_⟩
  rcases sim_run hc ops h with ⟨rs, s', l', t', k1, k2, _⟩ | h
  · exact .inl ⟨rs, s', t', k1, k2⟩
  · exact .inr h

/-- C88, duplicate: the copy of a list reached by any history has the same values, in order, and works as a list of its own.  Partial:
those that are equal may be in another order (`duplicate_order_fails`). -/
theorem duplicate_partial [DecidableEq α] {cmp : α → α → Int} (hc : LawfulCmp cmp) {s : S α} {t} (hr : Reached cmp s t) (ks : List Nat) :
    ∃ vs d us, walk s = some vs ∧ duplicate cmp ks s = some d ∧ Behaves cmp d us ∧ List.Perm us vs := by
  obtain ⟨l, t', ha⟩ := hr.abs hc
  obtain ⟨d, l2, t2, out, h1, h2, h3, h4⟩ := insertVals_ok hc false false (l.map (·.2.1)) ks (s := create) (l := []) (t := []) ⟨create_rep, List.Pairwise.nil, rfl⟩
  have hperm : ∀ (src dest out : List α), Merged cmp false false dest src out → List.Perm out (dest ++ src) := by
    intro src
    induction src with
    | nil => intro dest out h; cases h; simp
    | cons v src ih =>
      intro dest out h
      cases h with
      | skip h => cases h
      | add _ h => exact (ih _ _ h).trans (by simpa using List.perm_middle.symm)
  exact ⟨_, d, _, walk_ok ha.rep, by rw [duplicate, walk_ok ha.rep, Option.bind_some, h1], h2.behaves hc, h4.trans (by simpa using hperm _ _ _ h3)⟩

/-- The copy of a list with three equal values has two of them the other way round. -/
theorem duplicate_order_fails :
    (((run keyCmp create [.insert (1, 1) 0, .insert (1, 2) 0, .insert (1, 3) 0]).bind fun r => walk r.2) = some [(1, 1), (1, 3), (1, 2)]) ∧
    (((run keyCmp create [.insert (1, 1) 0, .insert (1, 2) 0, .insert (1, 3) 0]).bind fun r => duplicate keyCmp [] r.2).bind walk) = some [(1, 1), (1, 2), (1, 3)] := by
  constructor <;> decide +kernel

/-- C88, merge: into a list reached by any history go the values of another one, all of them or only those without a match; the result is
in order and works as a list. -/
theorem merge_correct [DecidableEq α] {cmp : α → α → Int} (hc : LawfulCmp cmp) {s src : S α} {t u} (hr : Reached cmp s t) (hsrc : Reached cmp src u)
    (ks : List Nat) (dups ptr : Bool) :
    ∃ vs ws d us out, walk s = some vs ∧ walk src = some ws ∧ merge cmp ks s src dups ptr = some d ∧ Behaves cmp d us ∧
      Merged cmp (!dups) ptr vs ws out ∧ List.Perm us out := by
  obtain ⟨l, t', ha⟩ := hr.abs hc
  obtain ⟨l2, t2, hb⟩ := hsrc.abs hc
  obtain ⟨d, l3, t3, out, h1, h2, h3, h4⟩ := insertVals_ok hc (!dups) ptr (l2.map (·.2.1)) ks ha
  refine ⟨_, _, d, _, out, walk_ok ha.rep, walk_ok hb.rep, by rw [merge, walk_ok hb.rep, Option.bind_some, h1], h2.behaves hc, ?_, h4⟩
  rw [ha.pub, List.map_map] at h3
  exact h3

/-- Merging `3 5 5` into `1 3 8` without duplicates: only one `5` is added. -/
example : (((run natCmp create [.insert 8 0, .insert 3 1, .insert 1 2]).bind fun a => (run natCmp create [.insert 5 0, .insert 3 1, .insert 5 2]).bind fun b =>
    merge natCmp [1, 0] a.2 b.2 false false).bind walk) = some [1, 3, 5, 8] := by decide +kernel
example : Merged natCmp true false [1, 3, 8] [3, 5, 5] [5, 1, 3, 8] :=
  .skip rfl ⟨3, by decide, by decide⟩ (.add (by decide) (.skip rfl ⟨5, by decide, by decide⟩ (.nil _)))

end Verif.SkipList
