import Verif.LList.Lemmas
/- Property C14: the unsorted linked list is a sequence of nodes whatever the history. -/
namespace Verif.LList

variable {α : Type _}

/-! ### Specification

A list is a sequence of nodes (handle, value).  A handle names a node as a `M_llist_node_t *` does. -/

inductive Op (α : Type _) where
  | insert (v : α)
  | insertFirst (v : α)
  | insertBefore (p : Nat) (v : α)
  | insertAfter (p : Nat) (v : α)
  | take (p : Nat)
  | moveBefore (m b : Nat)
  | moveAfter (m b : Nat)
  | setFirst (p : Nat)
  | setLast (p : Nat)
  | len
  | first
  | last
  | next (p : Nat)
  | prev (p : Nat)
  | val (p : Nat)
  | find (eq : α → Bool)
  | count (eq : α → Bool)
  | removeVal (eq : α → Bool) (all : Bool)
  | forward
  | backward

inductive Res (α : Type _) where
  | node (p : Option Nat)
  | val (v : α)
  | bool (b : Bool)
  | num (n : Nat)
  | vals (l : List α)
  | unit
deriving DecidableEq

/-- What a call returns and how it changes the sequence.  In a circular list "before the first" is "after the last". -/
def Spec (circ : Bool) (s : List (Nat × α)) : Op α → Res α → List (Nat × α) → Prop
  | .insert v, r, s' => ∃ n, n ∉ s.map (·.1) ∧ r = .node (some n) ∧ s' = s ++ [(n, v)]
  | .insertFirst v, r, s' => ∃ n, n ∉ s.map (·.1) ∧ r = .node (some n) ∧ s' = (n, v) :: s
  | .insertBefore p v, r, s' => ∃ n A w B, n ∉ s.map (·.1) ∧ r = .node (some n) ∧ s = A ++ (p, w) :: B ∧
      s' = if circ = true ∧ A = [] then s ++ [(n, v)] else A ++ (n, v) :: (p, w) :: B
  | .insertAfter p v, r, s' => ∃ n A w B, n ∉ s.map (·.1) ∧ r = .node (some n) ∧ s = A ++ (p, w) :: B ∧
      s' = A ++ (p, w) :: (n, v) :: B
  | .take p, r, s' => ∃ A w B, s = A ++ (p, w) :: B ∧ r = .val w ∧ s' = A ++ B
  | .moveBefore m b, r, s' =>
    if m = b then r = .bool false ∧ s' = s
    else ∃ A v B C w D, s = A ++ (m, v) :: B ∧ A ++ B = C ++ (b, w) :: D ∧ r = .bool true ∧
      s' = if circ = true ∧ B = [] ∧ C = [] then s else C ++ (m, v) :: (b, w) :: D
  | .moveAfter m b, r, s' =>
    if m = b then r = .bool false ∧ s' = s
    else ∃ A v B C w D, s = A ++ (m, v) :: B ∧ A ++ B = C ++ (b, w) :: D ∧ r = .bool true ∧
      s' = if circ = true ∧ A = [] ∧ D = [] then s else C ++ (b, w) :: (m, v) :: D
  | .setFirst p, r, s' => ∃ A w B, s = A ++ (p, w) :: B ∧ r = .unit ∧
      s' = if circ then (p, w) :: B ++ A else (p, w) :: A ++ B
  | .setLast p, r, s' => ∃ A w B, s = A ++ (p, w) :: B ∧ r = .unit ∧
      s' = if circ then B ++ A ++ [(p, w)] else A ++ B ++ [(p, w)]
  | .len, r, s' => s' = s ∧ r = .num s.length
  | .first, r, s' => s' = s ∧ r = .node (s.head?.map (·.1))
  | .last, r, s' => s' = s ∧ r = .node (s.getLast?.map (·.1))
  | .next p, r, s' => ∃ A w B, s = A ++ (p, w) :: B ∧ s' = s ∧
      r = .node ((if circ then (B ++ A ++ [(p, w)]).head? else B.head?).map (·.1))
  | .prev p, r, s' => ∃ A w B, s = A ++ (p, w) :: B ∧ s' = s ∧
      r = .node ((if circ then ((p, w) :: B ++ A).getLast? else A.getLast?).map (·.1))
  | .val p, r, s' => ∃ A w B, s = A ++ (p, w) :: B ∧ s' = s ∧ r = .val w
  | .find eq, r, s' => s' = s ∧ r = .node ((s.find? fun p => eq p.2).map (·.1))
  | .count eq, r, s' => s' = s ∧ r = .num (s.countP fun p => eq p.2)
  | .removeVal eq true, r, s' => r = .num (s.countP fun p => eq p.2) ∧ s' = s.filter fun p => !eq p.2
  | .removeVal eq false, r, s' => r = .num (if s.any fun p => eq p.2 then 1 else 0) ∧ s' = s.eraseP fun p => eq p.2
  | .forward, r, s' => s' = s ∧ r = .vals (s.map (·.2))
  | .backward, r, s' => s' = s ∧ r = .vals (s.map (·.2)).reverse

inductive SpecRun (circ : Bool) : List (Nat × α) → List (Op α) → List (Res α) → List (Nat × α) → Prop
  | nil (s) : SpecRun circ s [] [] s
  | cons {s s' s'' op ops r rs} : Spec circ s op r s' → SpecRun circ s' ops rs s'' →
      SpecRun circ s (op :: ops) (r :: rs) s''

/-- What the caller must respect: handles name nodes of the list.  For circular lists also: the only node is not
removed, and `remove_val` with M_LLIST_MATCH_ALL does not match the first node (both corrupt the list, see the theorems
ending in `_fails`). -/
def Ok (circ : Bool) (s : List (Nat × α)) : Op α → Prop
  | .insertBefore p _ | .insertAfter p _ | .setFirst p | .setLast p | .next p | .prev p | .val p => p ∈ s.map (·.1)
  | .take p => p ∈ s.map (·.1) ∧ (circ = true → 2 ≤ s.length)
  | .moveBefore m b | .moveAfter m b => m ∈ s.map (·.1) ∧ b ∈ s.map (·.1)
  | .removeVal eq true => circ = true → ∀ p, s.head? = some p → eq p.2 = false
  | .removeVal _ false => circ = true → s.length ≠ 1
  | _ => True

/-! ### Execution of the model -/

def step (l : L α) : Op α → Option (Res α × L α)
  | .insert v => (insert l v).map fun r => (.node (some r.1), r.2)
  | .insertFirst v => (insertFirst l v).map fun r => (.node (some r.1), r.2)
  | .insertBefore p v => (insertBefore l p v).map fun r => (.node (some r.1), r.2)
  | .insertAfter p v => (insertAfter l p v).map fun r => (.node (some r.1), r.2)
  | .take p => (takeNode l p).map fun r => (.val r.1, r.2)
  | .moveBefore m b => (moveBefore l m b).map fun r => (.bool r.1, r.2)
  | .moveAfter m b => (moveAfter l m b).map fun r => (.bool r.1, r.2)
  | .setFirst p => (setFirst l p).map fun l => (.unit, l)
  | .setLast p => (setLast l p).map fun l => (.unit, l)
  | .len => some (.num l.elements, l)
  | .first => some (.node l.head, l)
  | .last => some (.node l.tail, l)
  | .next p => (getNext l p).map fun r => (.node r, l)
  | .prev p => (getPrev l p).map fun r => (.node r, l)
  | .val p => (l.val p).map fun v => (.val v, l)
  | .find eq => (find l eq (l.elements + 1)).map fun r => (.node r, l)
  | .count eq => (count l eq (l.elements + 1)).map fun r => (.num r, l)
  | .removeVal eq all => (removeVal l eq all (l.elements + 1)).map fun r => (.num r.1, r.2)
  | .forward => (walk l (l.elements + 1)).map fun r => (.vals r, l)
  | .backward => (walkBack l (l.elements + 1)).map fun r => (.vals r, l)

def run (l : L α) : List (Op α) → Option (List (Res α) × L α)
  | [] => some ([], l)
  | op :: ops =>
    match step l op with
    | none => none
    | some (r, l) => (run l ops).map fun (rs, l) => (r :: rs, l)

/-! ### Proof -/

structure Rep (l : L α) (s : List (Nat × α)) : Prop where
  str : Str l (s.map (·.1))
  vals : ∀ p ∈ s, l.val p.1 = some p.2
  dead : ∀ i, i ∉ s.map (·.1) → l.val i = none
  len : l.elements = s.length
  fresh : ∀ i ∈ s.map (·.1), i < l.fresh

theorem split_of_mem {s : List (Nat × α)} {p : Nat} (h : p ∈ s.map (·.1)) : ∃ A w B, s = A ++ (p, w) :: B := by
  obtain ⟨⟨q, w⟩, hq, rfl⟩ := List.mem_map.1 h
  obtain ⟨A, B, h⟩ := List.append_of_mem hq
  exact ⟨A, w, B, h⟩

theorem Rep.fresh_not {l : L α} {s} (hr : Rep l s) : l.fresh ∉ s.map (·.1) := fun h => Nat.lt_irrefl _ (hr.fresh _ h)

/-- After creating a node. -/
theorem created {l : L α} {s} (hr : Rep l s) (v : α) :
    Str (nodeCreate l v).2 (s.map (·.1)) ∧ ((nodeCreate l v).2.val (nodeCreate l v).1).isSome ∧
      (nodeCreate l v).2.prev (nodeCreate l v).1 = none := by
  have hf := hr.fresh_not
  refine ⟨⟨hr.str.nodup, ?_, hr.str.head, hr.str.tail, ?_⟩, by simp [nodeCreate, upd], by simp [nodeCreate, upd]⟩
  · intro A x B h
    have : x ≠ l.fresh := by rintro rfl; exact hf (by rw [h]; simp)
    have := hr.str.linked A x B h
    simp_all [nodeCreate, upd]
  · intro x hx
    have : x ≠ l.fresh := by rintro rfl; exact hf hx
    have := hr.str.live x hx
    simp_all [nodeCreate, upd]

/-- Re-establishing `Rep` after an insertion. -/
theorem Rep.inserted {l l' : L α} {s A B : List (Nat × α)} {v : α} (hr : Rep l s) (he : s = A ++ B)
    (h1 : Str l' ((A ++ (l.fresh, v) :: B).map (·.1))) (h2 : l'.val = (nodeCreate l v).2.val)
    (h3 : l'.elements = (nodeCreate l v).2.elements + 1) (h4 : l'.fresh = (nodeCreate l v).2.fresh) :
    Rep l' (A ++ (l.fresh, v) :: B) := by
  have hf := hr.fresh_not
  refine ⟨h1, ?_, ?_, ?_, ?_⟩
  · intro p hp
    rw [h2]
    simp only [nodeCreate, upd]
    by_cases hpf : p.1 = l.fresh
    · rw [if_pos hpf]
      have : p = (l.fresh, v) := by
        simp only [List.mem_append, List.mem_cons] at hp
        rcases hp with hp | hp | hp
        · exact absurd (List.mem_map.2 ⟨p, by rw [he]; simp [hp], hpf⟩) hf
        · exact hp
        · exact absurd (List.mem_map.2 ⟨p, by rw [he]; simp [hp], hpf⟩) hf
      rw [this]
    · rw [if_neg hpf]
      refine hr.vals p ?_
      rw [he]
      simp only [List.mem_append, List.mem_cons] at hp ⊢
      rcases hp with hp | hp | hp
      · exact Or.inl hp
      · rw [hp] at hpf; exact absurd rfl hpf
      · exact Or.inr hp
  · intro i hi
    rw [h2]
    simp only [nodeCreate, upd]
    have hif : i ≠ l.fresh := by rintro rfl; simp at hi
    rw [if_neg hif]
    refine hr.dead i ?_
    rw [he]
    simp only [List.map_append, List.map_cons, List.mem_append, List.mem_cons] at hi ⊢
    grind
  · rw [h3]; simp [nodeCreate, hr.len, he]; omega
  · intro i hi
    rw [h4]
    simp only [nodeCreate]
    by_cases hif : i = l.fresh
    · omega
    · have := hr.fresh i (by
        rw [he]
        simp only [List.map_append, List.map_cons, List.mem_append, List.mem_cons] at hi ⊢
        grind)
      omega

theorem insertAt_none {l : L α} {s} (hr : Rep l s) (v : α) :
    ∃ l', insertUnsorted (nodeCreate l v).2 (nodeCreate l v).1 none = some l' ∧ Rep l' ((l.fresh, v) :: s) ∧
      l'.circular = l.circular := by
  obtain ⟨c1, c2, c3⟩ := created hr v
  obtain ⟨l', h1, h2, h3, h4, h5, h6⟩ := insertUnsorted_none c1 (n := (nodeCreate l v).1) hr.fresh_not c2 c3
  exact ⟨l', h1, Rep.inserted (A := []) (B := s) hr rfl h2 h4 h5 h6, h3⟩

theorem insertAt_some {l : L α} {A B : List (Nat × α)} {a w} (hr : Rep l (A ++ (a, w) :: B)) (v : α) :
    ∃ l', insertUnsorted (nodeCreate l v).2 (nodeCreate l v).1 (some a) = some l' ∧
      Rep l' (A ++ (a, w) :: (l.fresh, v) :: B) ∧ l'.circular = l.circular := by
  obtain ⟨c1, c2, c3⟩ := created hr v
  simp only [List.map_append, List.map_cons] at c1
  obtain ⟨l', h1, h2, h3, h4, h5, h6⟩ := insertUnsorted_some c1 (n := (nodeCreate l v).1)
    (by have := hr.fresh_not; simpa [nodeCreate] using this) c2
  refine ⟨l', h1, ?_, h3⟩
  have := Rep.inserted (A := A ++ [(a, w)]) (B := B) (v := v) hr (by simp) (by simpa [nodeCreate] using h2) h4 h5 h6
  simpa using this

theorem insert_spec {l : L α} {s} (hr : Rep l s) (v : α) :
    ∃ l', insert l v = some (l.fresh, l') ∧ Rep l' (s ++ [(l.fresh, v)]) ∧ l'.circular = l.circular := by
  unfold insert
  have ht : (nodeCreate l v).2.tail = (s.map (·.1)).getLast? := hr.str.tail
  dsimp only
  rcases List.eq_nil_or_concat s with rfl | ⟨A, ⟨a, w⟩, rfl⟩
  · rw [ht]
    obtain ⟨l', h1, h2, h3⟩ := insertAt_none hr v
    exact ⟨l', by simp only [List.map_nil, List.getLast?_nil]; rw [h1]; rfl, h2, h3⟩
  · rw [List.concat_eq_append] at *
    rw [ht]
    obtain ⟨l', h1, h2, h3⟩ := insertAt_some hr v
    exact ⟨l', by simp only [List.map_append, List.map_cons, List.map_nil, List.getLast?_concat]; rw [h1]; rfl,
      by simpa using h2, h3⟩

/-- Re-establishing `Rep` after relinking. -/
theorem Rep.relinked {l l' : L α} {s s' : List (Nat × α)} (hr : Rep l s) (hp : s'.Perm s)
    (h1 : Str l' (s'.map (·.1))) (hs : Same l l') : Rep l' s' := by
  have hp1 := hp.map (·.1)
  refine ⟨h1, ?_, ?_, ?_, ?_⟩
  · intro p hp'; rw [hs.val]; exact hr.vals p (hp.subset hp')
  · intro i hi; rw [hs.val]; exact hr.dead i fun h => hi (hp1.symm.subset h)
  · rw [hs.elements, hr.len, hp.length_eq]
  · intro i hi; rw [hs.fresh]; exact hr.fresh i (hp1.subset hi)

theorem take_spec {l : L α} {A B : List (Nat × α)} {p w} (hr : Rep l (A ++ (p, w) :: B))
    (hne : l.circular = true → A ++ B ≠ []) :
    ∃ l', takeNode l p = some (w, l') ∧ Rep l' (A ++ B) ∧ l'.circular = l.circular := by
  have hst := hr.str
  simp only [List.map_append, List.map_cons] at hst
  have hnd := hst.nodup
  obtain ⟨l1, h1, h2, h3⟩ := unlink_spec hst (fun hc h => hne hc (by
    rw [← List.map_append] at h; exact List.map_eq_nil_iff.1 h))
  have hpn : p ∉ A.map (·.1) ++ B.map (·.1) := by
    intro h
    simp [List.nodup_append] at hnd h
    grind
  have hpn' : ∀ q ∈ A ++ B, q.1 ≠ p := by
    rintro q hq rfl
    exact hpn (by rw [← List.map_append]; exact List.mem_map.2 ⟨q, hq, rfl⟩)
  have hv : l1.val p = some w := by rw [h3.val]; exact hr.vals (p, w) (by simp)
  refine ⟨{ nodeDestroy l1 p with elements := (nodeDestroy l1 p).elements - 1 }, ?_, ⟨⟨?_, ?_, ?_, ?_, ?_⟩, ?_, ?_, ?_, ?_⟩,
    h3.circular⟩
  · simp [takeNode, h1, hv]
  · rw [List.map_append]; exact h2.nodup
  · rw [List.map_append]
    intro A' x B' h
    have hx : x ≠ p := by rintro rfl; exact hpn (by rw [h]; simp)
    have := h2.linked A' x B' h
    simp only [nodeDestroy, upd, if_neg hx]
    exact this
  · rw [List.map_append]; exact h2.head
  · rw [List.map_append]; exact h2.tail
  · rw [List.map_append]
    intro x hx
    have hxp : x ≠ p := by rintro rfl; exact hpn hx
    have := h2.live x hx
    simpa only [nodeDestroy, upd, if_neg hxp] using this
  · intro q hq
    simp only [nodeDestroy, upd, if_neg (hpn' q hq), h3.val]
    exact hr.vals q (by simp only [List.mem_append, List.mem_cons] at hq ⊢; grind)
  · intro i hi
    simp only [nodeDestroy, upd]
    by_cases hip : i = p
    · rw [if_pos hip]
    · rw [if_neg hip, h3.val]
      refine hr.dead i ?_
      simp only [List.map_append, List.map_cons, List.mem_append, List.mem_cons] at hi ⊢
      grind
  · simp only [nodeDestroy, h3.elements, hr.len]
    simp only [List.length_append, List.length_cons]
    omega
  · intro i hi
    simp only [nodeDestroy, h3.fresh]
    refine hr.fresh i ?_
    simp only [List.map_append, List.map_cons, List.mem_append, List.mem_cons] at hi ⊢
    grind

theorem nodup_split {s : List (Nat × α)} (hnd : (s.map (·.1)).Nodup) {A B A' B' : List (Nat × α)} {p w w'}
    (h : s = A ++ (p, w) :: B) (h' : s = A' ++ (p, w') :: B') : A = A' ∧ w = w' ∧ B = B' := by
  subst h
  rcases split_cases h' with ⟨C, rfl, rfl⟩ | ⟨rfl, h, rfl⟩ | ⟨C, rfl, rfl⟩
  · exfalso; simp [List.nodup_append] at hnd
  · exact ⟨rfl, by simpa using h, rfl⟩
  · exfalso; simp [List.nodup_append] at hnd

theorem nx_map (c : Bool) (A B : List (Nat × α)) (p : Nat) (w : α) :
    nx c (A.map (·.1)) p (B.map (·.1)) =
      (if c then (B ++ A ++ [(p, w)]).head? else B.head?).map (·.1) := by
  unfold nx
  split
  · rw [← List.head?_map]; simp
  · rw [← List.head?_map]

theorem pv_map (c : Bool) (A B : List (Nat × α)) (p : Nat) (w : α) :
    pv c (A.map (·.1)) p (B.map (·.1)) =
      (if c then ((p, w) :: B ++ A).getLast? else A.getLast?).map (·.1) := by
  unfold pv
  split
  · rw [← List.getLast?_map]; simp
  · rw [← List.getLast?_map]

theorem sim_moveBefore {l : L α} {A B C D : List (Nat × α)} {m b v w} (hr : Rep l (A ++ (m, v) :: B))
    (hb : A ++ B = C ++ (b, w) :: D) :
    ∃ l', moveBefore l m b = some (true, l') ∧
      Rep l' (if l.circular = true ∧ B = [] ∧ C = [] then A ++ (m, v) :: B else C ++ (m, v) :: (b, w) :: D) ∧
      l'.circular = l.circular := by
  have hst := hr.str
  simp only [List.map_append, List.map_cons] at hst
  obtain ⟨l', h1, h2, h3⟩ := moveBefore_spec hst (C := C.map (·.1)) (b := b) (D := D.map (·.1)) (by
    rw [← List.map_append, hb]; simp)
  refine ⟨l', h1, hr.relinked ?_ ?_ h3, h3.circular⟩
  · split
    · exact List.Perm.refl _
    · have e1 : (C ++ (m, v) :: (b, w) :: D).Perm ((m, v) :: (C ++ (b, w) :: D)) := List.perm_middle
      rw [← hb] at e1
      exact e1.trans List.perm_middle.symm
  · have hnd := hst.nodup
    refine (congrArg (Str l') ?_).mpr h2
    by_cases hx : nx l.circular (A.map (·.1)) m (B.map (·.1)) = some b
    · rw [if_pos hx]
      by_cases hc : l.circular = true ∧ B = [] ∧ C = []
      · rw [if_pos hc]; simp
      · rw [if_neg hc]
        rcases B with _ | ⟨⟨b', w'⟩, B⟩
        · exfalso
          rw [List.append_nil] at hb
          subst hb
          have hC : ¬ (l.circular = true ∧ C = []) := fun h => hc ⟨h.1, rfl, h.2⟩
          rcases C with _ | ⟨⟨c, w'⟩, C⟩ <;> cases hcc : l.circular <;> simp_all [nx, List.nodup_append] <;> grind
        · have hbb : b' = b := by
            unfold nx at hx
            split at hx <;> simpa using hx
          subst hbb
          have hnd2 : ((A ++ (b', w') :: B).map (·.1)).Nodup := by
            simp [List.nodup_append] at hnd ⊢; grind
          obtain ⟨rfl, rfl, rfl⟩ := nodup_split hnd2 rfl hb
          simp
    · rw [if_neg hx]
      by_cases hc : l.circular = true ∧ B = [] ∧ C = []
      · exfalso
        obtain ⟨hc, rfl, rfl⟩ := hc
        rw [List.append_nil, List.nil_append] at hb
        subst hb
        simp [nx, hc] at hx
      · rw [if_neg hc]; simp

theorem sim_moveAfter {l : L α} {A B C D : List (Nat × α)} {m b v w} (hr : Rep l (A ++ (m, v) :: B))
    (hb : A ++ B = C ++ (b, w) :: D) :
    ∃ l', moveAfter l m b = some (true, l') ∧
      Rep l' (if l.circular = true ∧ A = [] ∧ D = [] then A ++ (m, v) :: B else C ++ (b, w) :: (m, v) :: D) ∧
      l'.circular = l.circular := by
  have hst := hr.str
  simp only [List.map_append, List.map_cons] at hst
  obtain ⟨l', h1, h2, h3⟩ := moveAfter_spec hst (C := C.map (·.1)) (b := b) (D := D.map (·.1)) (by
    rw [← List.map_append, hb]; simp)
  refine ⟨l', h1, hr.relinked ?_ ?_ h3, h3.circular⟩
  · split
    · exact List.Perm.refl _
    · have e1 : (C ++ (b, w) :: (m, v) :: D).Perm ((m, v) :: (C ++ (b, w) :: D)) :=
        (List.Perm.append_left C (List.Perm.swap _ _ _)).trans List.perm_middle
      rw [← hb] at e1
      exact e1.trans List.perm_middle.symm
  · have hnd := hst.nodup
    refine (congrArg (Str l') ?_).mpr h2
    by_cases hx : pv l.circular (A.map (·.1)) m (B.map (·.1)) = some b
    · rw [if_pos hx]
      by_cases hc : l.circular = true ∧ A = [] ∧ D = []
      · rw [if_pos hc]; simp
      · rw [if_neg hc]
        rcases List.eq_nil_or_concat A with rfl | ⟨A, ⟨b', w'⟩, rfl⟩
        · exfalso
          rw [List.nil_append] at hb
          subst hb
          rcases List.eq_nil_or_concat D with rfl | ⟨D0, ⟨d, w'⟩, rfl⟩ <;> cases hcc : l.circular <;>
            simp_all [pv, List.nodup_append, List.getLast?_eq_head?_reverse, -List.head?_reverse] <;> grind
        · rw [List.concat_eq_append] at *
          have hbb : b' = b := by
            unfold pv at hx
            split at hx <;> simpa [List.getLast?_eq_head?_reverse, -List.head?_reverse] using hx
          subst hbb
          have hnd2 : ((A ++ (b', w') :: B).map (·.1)).Nodup := by
            simp [List.nodup_append] at hnd ⊢; grind
          obtain ⟨rfl, rfl, rfl⟩ := nodup_split hnd2 rfl (by simpa using hb)
          simp
    · rw [if_neg hx]
      by_cases hc : l.circular = true ∧ A = [] ∧ D = []
      · exfalso
        obtain ⟨hc, rfl, rfl⟩ := hc
        rw [List.nil_append] at hb
        subst hb
        simp [pv, hc, List.getLast?_eq_head?_reverse, -List.head?_reverse] at hx
      · rw [if_neg hc]; simp

/-- The next node, for a list given by its nodes with values. -/
theorem Rep.next_eq {l : L α} {A B : List (Nat × α)} {p w} (hr : Rep l (A ++ (p, w) :: B)) :
    getNext l p = some ((if l.circular then (B ++ A ++ [(p, w)]).head? else B.head?).map (·.1)) := by
  have hst := hr.str
  simp only [List.map_append, List.map_cons] at hst
  rw [hst.next_eq, nx_map _ _ _ _ w]

theorem Rep.prev_eq {l : L α} {A B : List (Nat × α)} {p w} (hr : Rep l (A ++ (p, w) :: B)) :
    getPrev l p = some ((if l.circular then ((p, w) :: B ++ A).getLast? else A.getLast?).map (·.1)) := by
  have hst := hr.str
  simp only [List.map_append, List.map_cons] at hst
  rw [hst.prev_eq, pv_map _ _ _ _ w]

theorem rotate_linked {next prev : Nat → Option Nat} {A B : List Nat} (h : Linked true next prev (A ++ B)) :
    Linked true next prev (B ++ A) := by
  intro A' x B' he
  rw [List.append_eq_append_iff] at he
  rcases he with ⟨C, rfl, rfl⟩ | ⟨t, rfl, h2⟩
  · obtain ⟨h1, h2⟩ := h C x (B' ++ B) (by simp)
    rw [h1, h2]
    simp [nx, pv]
  · cases t with
    | nil =>
      simp only [List.nil_append] at h2
      subst h2
      obtain ⟨h1, h2⟩ := h [] x (B' ++ A') (by simp)
      rw [h1, h2]
      simp [nx, pv]
    | cons y C =>
      simp only [List.cons_append, List.cons.injEq] at h2
      obtain ⟨rfl, rfl⟩ := h2
      obtain ⟨h1, h2⟩ := h (A ++ A') x C (by simp)
      rw [h1, h2]
      simp [nx, pv]

theorem sim_setFirst {l : L α} {A B : List (Nat × α)} {p w} (hr : Rep l (A ++ (p, w) :: B)) :
    ∃ l', setFirst l p = some l' ∧ Rep l' (if l.circular then (p, w) :: B ++ A else (p, w) :: A ++ B) ∧
      l'.circular = l.circular := by
  have hv : l.val p = some w := hr.vals (p, w) (by simp)
  unfold setFirst
  rw [if_neg (by simp [hv])]
  by_cases h1 : l.elements ≤ 1
  · rw [if_pos h1]
    have : A.length = 0 ∧ B.length = 0 := by
      have := hr.len
      simp only [List.length_append, List.length_cons] at this
      omega
    rw [List.length_eq_zero_iff, List.length_eq_zero_iff] at this
    obtain ⟨rfl, rfl⟩ := this
    refine ⟨l, rfl, ?_, rfl⟩
    split <;> exact hr
  · rw [if_neg h1]
    have hst := hr.str
    simp only [List.map_append, List.map_cons] at hst
    by_cases hc : l.circular = true
    · rw [if_pos hc, if_pos hc]
      refine ⟨_, rfl, hr.relinked ?_ ⟨?_, ?_, rfl, ?_, ?_⟩ ⟨rfl, rfl, rfl, rfl⟩, rfl⟩
      · exact (List.perm_append_comm : (((p, w) :: B) ++ A).Perm (A ++ ((p, w) :: B)))
      · have := hst.nodup
        simp [List.nodup_append] at this ⊢
        grind
      · have := hst.linked
        dsimp only
        rw [hc] at this ⊢
        have := rotate_linked this
        simpa using this
      · dsimp only
        rw [(hst.linked _ p _ rfl).2, hc]
        simp [pv]
      · intro x hx
        exact hst.live x (by simp at hx ⊢; grind)
    · rw [if_neg hc, if_neg hc, hst.head]
      rcases A with _ | ⟨⟨a, v⟩, A⟩
      · simp only [List.map_nil, List.nil_append, List.head?_cons, moveBefore, if_true]
        exact ⟨l, rfl, hr, rfl⟩
      · simp only [List.map_cons, List.cons_append, List.head?_cons]
        obtain ⟨l', k1, k2, k3⟩ := sim_moveBefore (A := (a, v) :: A) (C := []) (b := a) (w := v) (D := A ++ B) hr (by simp)
        rw [if_neg (by simp [hc])] at k2
        exact ⟨l', by rw [k1]; rfl, by simpa using k2, k3⟩

theorem sim_setLast {l : L α} {A B : List (Nat × α)} {p w} (hr : Rep l (A ++ (p, w) :: B)) :
    ∃ l', setLast l p = some l' ∧ Rep l' (if l.circular then B ++ A ++ [(p, w)] else A ++ B ++ [(p, w)]) ∧
      l'.circular = l.circular := by
  have hv : l.val p = some w := hr.vals (p, w) (by simp)
  unfold setLast
  rw [if_neg (by simp [hv])]
  by_cases h1 : l.elements ≤ 1
  · rw [if_pos h1]
    have : A.length = 0 ∧ B.length = 0 := by
      have := hr.len
      simp only [List.length_append, List.length_cons] at this
      omega
    rw [List.length_eq_zero_iff, List.length_eq_zero_iff] at this
    obtain ⟨rfl, rfl⟩ := this
    refine ⟨l, rfl, ?_, rfl⟩
    split <;> exact hr
  · rw [if_neg h1]
    have hst := hr.str
    simp only [List.map_append, List.map_cons] at hst
    by_cases hc : l.circular = true
    · rw [if_pos hc, if_pos hc]
      refine ⟨_, rfl, hr.relinked ?_ ⟨?_, ?_, ?_, ?_, ?_⟩ ⟨rfl, rfl, rfl, rfl⟩, rfl⟩
      · have := (List.perm_append_comm : (B ++ (A ++ [(p, w)])).Perm ((A ++ [(p, w)]) ++ B))
        simpa using this
      · have := hst.nodup
        simp [List.nodup_append] at this ⊢
        grind
      · have := hst.linked
        dsimp only
        rw [hc] at this ⊢
        have := rotate_linked (A := A.map (·.1) ++ [p]) (B := B.map (·.1)) (by simpa using this)
        simpa using this
      · dsimp only
        rw [(hst.linked _ p _ rfl).1, hc]
        simp [nx]
      · simp
      · intro x hx
        exact hst.live x (by simp at hx ⊢; grind)
    · rw [if_neg hc, if_neg hc, hst.tail]
      rcases List.eq_nil_or_concat B with rfl | ⟨B, ⟨b, v⟩, rfl⟩
      · simp only [List.map_nil, List.getLast?_concat, moveAfter, if_true]
        exact ⟨l, rfl, by simpa using hr, rfl⟩
      · rw [List.concat_eq_append] at *
        have : (A.map (·.1) ++ p :: (B ++ [(b, v)]).map (·.1)).getLast? = some b := by
          simp [List.getLast?_eq_head?_reverse, -List.head?_reverse]
        rw [this]
        dsimp only
        obtain ⟨l', k1, k2, k3⟩ := sim_moveAfter (C := A ++ B) (b := b) (w := v) (D := []) hr (by simp)
        rw [if_neg (by simp [hc])] at k2
        exact ⟨l', by rw [k1]; rfl, by simpa using k2, k3⟩

/-! Loops -/

/-- Where a forward walk stands: at the first node of `T`. -/
theorem next_walk {l : L α} {S T : List (Nat × α)} {p w} (hr : Rep l (S ++ (p, w) :: T)) :
    ∃ nxt, getNext l p = some nxt ∧
      ((T = [] ∧ nxt ≠ l.head ∧ nxt = none) ∨ (T = [] ∧ nxt = l.head) ∨ (T ≠ [] ∧ nxt ≠ l.head ∧ nxt = T.head?.map (·.1))) := by
  refine ⟨_, hr.next_eq, ?_⟩
  have hst := hr.str
  have hnd := hst.nodup
  rw [hst.head]
  rcases T with _ | ⟨⟨q, v⟩, T⟩ <;> rcases S with _ | ⟨⟨q', v'⟩, S⟩ <;> cases hc : l.circular <;>
    simp_all [List.nodup_append] <;> grind

theorem walkLoop_spec {l : L α} (fuel : Nat) : ∀ {S T : List (Nat × α)}, Rep l (S ++ T) → T.length < fuel →
    walkLoop l.head l fuel (T.head?.map (·.1)) = some (T.map (·.2)) := by
  induction fuel with
  | zero => intro S T _ h; omega
  | succ fuel ih =>
    intro S T hr hf
    cases T with
    | nil => rfl
    | cons e T =>
      obtain ⟨p, w⟩ := e
      obtain ⟨nxt, h1, h2⟩ := next_walk hr
      have hv : l.val p = some w := hr.vals (p, w) (by simp)
      simp only [List.head?_cons, Option.map_some, walkLoop, hv, h1, bind, Option.bind_some]
      rcases h2 with ⟨rfl, h2, rfl⟩ | ⟨rfl, h2⟩ | ⟨h3, h4, rfl⟩
      · rw [if_neg h2]; simp [walkLoop]
      · rw [if_pos h2]; rfl
      · rw [if_neg h4, ih (S := S ++ [(p, w)]) (T := T) (by simpa using hr) (by simp at hf; omega)]
        rfl

theorem findLoop_spec {l : L α} (eq : α → Bool) (fuel : Nat) : ∀ {S T : List (Nat × α)}, Rep l (S ++ T) →
    T.length < fuel →
    findLoop eq l.head l fuel (T.head?.map (·.1)) = some ((T.find? fun p => eq p.2).map (·.1)) := by
  induction fuel with
  | zero => intro S T _ h; omega
  | succ fuel ih =>
    intro S T hr hf
    cases T with
    | nil => rfl
    | cons e T =>
      obtain ⟨p, w⟩ := e
      obtain ⟨nxt, h1, h2⟩ := next_walk hr
      have hv : l.val p = some w := hr.vals (p, w) (by simp)
      simp only [List.head?_cons, Option.map_some, findLoop, hv, h1, bind, Option.bind_some]
      by_cases he : eq w = true
      · simp [he]
      · rw [if_neg he, List.find?_cons_of_neg (by simpa using he)]
        rcases h2 with ⟨rfl, h2, rfl⟩ | ⟨rfl, h2⟩ | ⟨h3, h4, rfl⟩
        · rw [if_neg h2]; simp [findLoop]
        · rw [if_pos h2]; rfl
        · rw [if_neg h4, ih (S := S ++ [(p, w)]) (T := T) (by simpa using hr) (by simp at hf; omega)]

theorem matchLoop_step {eq : α → Bool} {remove all : Bool} {first : Option Nat} {fuel : Nat} {l l2 : L α} {p : Nat}
    {nxt : Option Nat} {w : α} {cnt cnt2 : Nat} (h1 : getNext l p = some nxt) (h2 : l.val p = some w)
    (h3 : (if eq w then (if remove then (takeNode l p).map fun r => (cnt + 1, r.2) else some (cnt + 1, l))
      else some (cnt, l)) = some (cnt2, l2)) :
    matchLoop eq remove all first (fuel + 1) l (some p) cnt =
      if cnt2 = 1 ∧ ¬ all ∧ remove then some (cnt2, l2)
      else if nxt = first then some (cnt2, l2)
      else matchLoop eq remove all first fuel l2 nxt cnt2 := by
  rw [matchLoop, h1, h2]
  simp only [bind, Option.bind_some]
  by_cases he : eq w = true
  · rw [if_pos he] at h3 ⊢
    rw [h3]; rfl
  · rw [if_neg he] at h3 ⊢
    cases h3; rfl

theorem countLoop_spec {l : L α} (eq : α → Bool) (fuel : Nat) : ∀ {S T : List (Nat × α)} (cnt : Nat), Rep l (S ++ T) →
    T.length < fuel →
    matchLoop eq false true l.head fuel l (T.head?.map (·.1)) cnt = some (cnt + (T.countP fun p => eq p.2), l) := by
  induction fuel with
  | zero => intro S T _ _ h; omega
  | succ fuel ih =>
    intro S T cnt hr hf
    cases T with
    | nil => rfl
    | cons e T =>
      obtain ⟨p, w⟩ := e
      obtain ⟨nxt, h1, h2⟩ := next_walk hr
      have hv : l.val p = some w := hr.vals (p, w) (by simp)
      have hstep : (if eq w = true then if false = true then (takeNode l p).map (fun r => (cnt + 1, r.2)) else some (cnt + 1, l)
          else some (cnt, l)) = some (cnt + (if eq w then 1 else 0), l) := by
        by_cases he : eq w = true <;> simp [he]
      rw [List.head?_cons, Option.map_some, matchLoop_step h1 hv hstep, if_neg (by simp), List.countP_cons]
      rcases h2 with ⟨rfl, h2, rfl⟩ | ⟨rfl, h2⟩ | ⟨h3, h4, rfl⟩
      · rw [if_neg h2]; simp [matchLoop]
      · rw [if_pos h2]; simp
      · rw [if_neg h4, ih (S := S ++ [(p, w)]) (T := T) _ (by simpa using hr) (by simp at hf; omega)]
        congr 2
        dsimp only
        omega

theorem prev_walk {l : L α} {S T : List (Nat × α)} {p w} (hr : Rep l (S ++ (p, w) :: T)) :
    ∃ nxt, getPrev l p = some nxt ∧
      ((S = [] ∧ nxt ≠ l.tail ∧ nxt = none) ∨ (S = [] ∧ nxt = l.tail) ∨
        (S ≠ [] ∧ nxt ≠ l.tail ∧ nxt = S.getLast?.map (·.1))) := by
  refine ⟨_, hr.prev_eq, ?_⟩
  have hst := hr.str
  have hnd := hst.nodup
  rw [hst.tail]
  rcases List.eq_nil_or_concat T with rfl | ⟨T, ⟨q, v⟩, rfl⟩ <;>
    rcases List.eq_nil_or_concat S with rfl | ⟨S, ⟨q', v'⟩, rfl⟩ <;> cases hc : l.circular <;>
    simp_all [List.nodup_append, List.getLast?_eq_head?_reverse, -List.head?_reverse] <;> grind

theorem walkBackLoop_spec {l : L α} (fuel : Nat) : ∀ {S T : List (Nat × α)}, Rep l (S ++ T) → S.length < fuel →
    walkBackLoop l.tail l fuel (S.getLast?.map (·.1)) = some (S.map (·.2)).reverse := by
  induction fuel with
  | zero => intro S T _ h; omega
  | succ fuel ih =>
    intro S T hr hf
    rcases List.eq_nil_or_concat S with rfl | ⟨S, ⟨p, w⟩, rfl⟩
    · rfl
    · rw [List.concat_eq_append] at *
      rw [List.append_assoc] at hr
      obtain ⟨nxt, h1, h2⟩ := prev_walk hr
      have hv : l.val p = some w := hr.vals (p, w) (by simp)
      simp only [List.getLast?_concat, Option.map_some, walkBackLoop, hv, h1, bind, Option.bind_some]
      rcases h2 with ⟨rfl, h2, rfl⟩ | ⟨rfl, h2⟩ | ⟨h3, h4, rfl⟩
      · rw [if_neg h2]; simp [walkBackLoop]
      · rw [if_pos h2]; rfl
      · rw [if_neg h4, ih (S := S) (T := (p, w) :: T) hr (by simp at hf; omega)]
        simp

/-- The removing loop, standing at the first node of `T`; `first` is the head at the start. -/
theorem removeLoop_spec (eq : α → Bool) (first : Option Nat) (fuel : Nat) :
    ∀ {l : L α} {S T : List (Nat × α)} (cnt : Nat), Rep l (S ++ T) → T.length < fuel →
    (∀ p ∈ T.tail, some p.1 ≠ first) → first ≠ none →
    (l.circular = true → S ≠ [] → l.head = first) →
    (l.circular = true → S = [] → (∀ p, T.head? = some p → eq p.2 = false ∧ l.head = first)) →
    ∃ l', matchLoop eq true true first fuel l (T.head?.map (·.1)) cnt = some (cnt + (T.countP fun p => eq p.2), l') ∧
      Rep l' (S ++ T.filter fun p => !eq p.2) ∧ l'.circular = l.circular := by
  induction fuel with
  | zero => intro l S T _ _ h; omega
  | succ fuel ih =>
    intro l S T cnt hr hf hfirst hfn hc1 hc2
    cases T with
    | nil => exact ⟨l, by simp [matchLoop], by simpa using hr, rfl⟩
    | cons e T =>
      obtain ⟨p, w⟩ := e
      obtain ⟨nxt, h1, h2⟩ := next_walk hr
      have hv : l.val p = some w := hr.vals (p, w) (by simp)
      have hnext : (T = [] ∧ (nxt = none ∨ nxt = first)) ∨ (T ≠ [] ∧ nxt = T.head?.map (·.1) ∧ nxt ≠ first) := by
        rcases h2 with ⟨rfl, h2, rfl⟩ | ⟨rfl, h2⟩ | ⟨h3, h4, rfl⟩
        · exact Or.inl ⟨rfl, Or.inl rfl⟩
        · left
          refine ⟨rfl, ?_⟩
          by_cases hc : l.circular = true
          · right
            rw [h2]
            by_cases hS : S = []
            · exact (hc2 hc hS (p, w) rfl).2
            · exact hc1 hc hS
          · left
            have := hr.next_eq
            rw [if_neg hc, h1] at this
            simpa using this
        · right
          refine ⟨h3, rfl, ?_⟩
          cases T with
          | nil => exact absurd rfl h3
          | cons q T => exact hfirst q (by simp)
      have hstep : ∃ l2, (if eq w = true then if true = true then (takeNode l p).map (fun r => (cnt + 1, r.2))
            else some (cnt + 1, l)
          else some (cnt, l)) = some (cnt + (if eq w then 1 else 0), l2) ∧
          Rep l2 ((if eq w then S else S ++ [(p, w)]) ++ T) ∧ l2.circular = l.circular ∧
          (l.circular = true → l2.head = first) := by
        by_cases he : eq w = true
        · obtain ⟨l2, k1, k2, k3⟩ := take_spec hr (by
            intro hc hST
            rw [List.append_eq_nil_iff] at hST
            have := (hc2 hc hST.1 (p, w) rfl).1
            simp [he] at this)
          refine ⟨l2, by simp [he, k1], by simpa [he] using k2, k3, fun hc => ?_⟩
          have hSne : S ≠ [] := by
            intro hS
            have := (hc2 hc hS (p, w) rfl).1
            simp [he] at this
          have h5 := hc1 hc hSne
          rw [← h5, k2.str.head, hr.str.head]
          cases S with
          | nil => exact absurd rfl hSne
          | cons => rfl
        · refine ⟨l, by simp [he], by simpa [he] using hr, rfl, fun hc => ?_⟩
          by_cases hS : S = []
          · exact (hc2 hc hS (p, w) rfl).2
          · exact hc1 hc hS
      obtain ⟨l2, k1, k2, k3, k4⟩ := hstep
      rw [List.head?_cons, Option.map_some, matchLoop_step h1 hv k1, if_neg (by simp), List.countP_cons]
      rcases hnext with ⟨rfl, hnx⟩ | ⟨hT, hnx, hnf⟩
      · refine ⟨l2, ?_, ?_, k3⟩
        · rcases hnx with rfl | rfl
          · rw [if_neg (Ne.symm hfn)]; simp [matchLoop]
          · rw [if_pos rfl]; simp
        · by_cases he : eq w = true <;> simpa [he] using k2
      · rw [if_neg hnf, hnx]
        obtain ⟨l', j1, j2, j3⟩ := ih (cnt + if eq w = true then 1 else 0) k2 (by simp at hf; omega)
          (fun q hq => hfirst q (List.mem_of_mem_tail hq)) hfn
          (fun hc _ => k4 (k3 ▸ hc))
          (fun hc hS => by
            exfalso
            by_cases he : eq w = true
            · rw [if_pos he] at hS
              have := (hc2 (k3 ▸ hc) hS (p, w) rfl).1
              simp [he] at this
            · rw [if_neg he] at hS
              simp at hS)
        refine ⟨l', ?_, ?_, by rw [j3, k3]⟩
        · rw [j1]
          congr 2
          dsimp only
          omega
        · by_cases he : eq w = true <;> simpa [he] using j2

/-- The removing loop without M_LLIST_MATCH_ALL. -/
theorem removeFirstLoop_spec (eq : α → Bool) (fuel : Nat) :
    ∀ {l : L α} {S T : List (Nat × α)}, Rep l (S ++ T) → T.length < fuel →
    (l.circular = true → (S ++ T).length ≠ 1) →
    ∃ l', matchLoop eq true false l.head fuel l (T.head?.map (·.1)) 0 =
        some ((if T.any fun p => eq p.2 then 1 else 0), l') ∧
      Rep l' (S ++ T.eraseP fun p => eq p.2) ∧ l'.circular = l.circular := by
  induction fuel with
  | zero => intro l S T _ h; omega
  | succ fuel ih =>
    intro l S T hr hf hc
    cases T with
    | nil => exact ⟨l, by simp [matchLoop], by simpa using hr, rfl⟩
    | cons e T =>
      obtain ⟨p, w⟩ := e
      obtain ⟨nxt, h1, h2⟩ := next_walk hr
      have hv : l.val p = some w := hr.vals (p, w) (by simp)
      by_cases he : eq w = true
      · obtain ⟨l2, k1, k2, k3⟩ := take_spec hr (by
          intro hcc hST
          apply hc hcc
          rw [List.append_eq_nil_iff] at hST
          simp [hST.1, hST.2])
        refine ⟨l2, ?_, by simpa [he] using k2, k3⟩
        simp [matchLoop, hv, h1, he, k1]
      · simp only [List.head?_cons, Option.map_some, matchLoop, hv, h1, bind, Option.bind_some, if_neg he]
        rw [if_neg (by simp), List.any_cons, List.eraseP_cons_of_neg (by simpa using he)]
        rcases h2 with ⟨rfl, h2, rfl⟩ | ⟨rfl, h2⟩ | ⟨h3, h4, rfl⟩
        · rw [if_neg h2]; exact ⟨l, by simp [matchLoop, he], hr, rfl⟩
        · rw [if_pos h2]; exact ⟨l, by simp [he], hr, rfl⟩
        · rw [if_neg h4]
          obtain ⟨l', j1, j2, j3⟩ := ih (S := S ++ [(p, w)]) (T := T) (by simpa using hr) (by simp at hf; omega)
            (by simpa using hc)
          exact ⟨l', by rw [j1]; simp only [show eq w = false by simpa using he, Bool.false_or], by simpa using j2, j3⟩

/-! ### The theorem -/

theorem map_split {s : List (Nat × α)} {p : Nat} {A B : List Nat} (h : s.map (·.1) = A ++ p :: B) :
    ∃ A' w B', s = A' ++ (p, w) :: B' ∧ A'.map (·.1) = A ∧ B'.map (·.1) = B := by
  rw [List.map_eq_append_iff] at h
  obtain ⟨s1, s2, rfl, h1, h2⟩ := h
  rw [List.map_eq_cons_iff] at h2
  obtain ⟨⟨q, w⟩, s3, rfl, rfl, h4⟩ := h2
  exact ⟨s1, w, s3, rfl, h1, h4⟩

theorem sim_step {l : L α} {s : List (Nat × α)} (hr : Rep l s) (op : Op α) (hok : Ok l.circular s op) :
    ∃ r l' s', step l op = some (r, l') ∧ Spec l.circular s op r s' ∧ Rep l' s' ∧ l'.circular = l.circular := by
  have hf := hr.fresh_not
  cases op with
  | insert v =>
    obtain ⟨l', h1, h2, h3⟩ := insert_spec hr v
    exact ⟨_, l', _, by simp only [step, h1]; rfl, ⟨_, hf, rfl, rfl⟩, h2, h3⟩
  | insertFirst v =>
    obtain ⟨l', h1, h2, h3⟩ := insertAt_none hr v
    exact ⟨_, l', _, by simp only [step, insertFirst, h1]; rfl, ⟨_, hf, rfl, rfl⟩, h2, h3⟩
  | insertBefore p v =>
    obtain ⟨A, w, B, rfl⟩ := split_of_mem hok
    have hst := (created hr v).1
    have hp : getPrev (nodeCreate l v).2 p =
        some ((if l.circular then ((p, w) :: B ++ A).getLast? else A.getLast?).map (·.1)) := by
      simp only [List.map_append, List.map_cons] at hst
      rw [hst.prev_eq, pv_map _ _ _ _ w]
      rfl
    rcases List.eq_nil_or_concat A with rfl | ⟨A, ⟨a, u⟩, rfl⟩
    · by_cases hc : l.circular = true
      · rw [if_pos hc, List.append_nil] at hp
        obtain ⟨l', h1, h2, h3⟩ := insert_spec hr v
        refine ⟨_, l', _, ?_, ⟨_, [], w, B, hf, rfl, rfl, rfl⟩, ?_, h3⟩
        · simp only [step, insertBefore, hp, Option.bind_some]
          have ht : (nodeCreate l v).2.tail = ((p, w) :: B).getLast?.map (·.1) := by
            have := hr.str.tail
            rw [List.getLast?_map] at this
            exact this
          rw [← ht]
          have : insert l v = (insertUnsorted (nodeCreate l v).2 (nodeCreate l v).1 (nodeCreate l v).2.tail).map
            fun l' => ((nodeCreate l v).1, l') := rfl
          rw [← this, h1]
          rfl
        · rw [if_pos ⟨hc, rfl⟩]; exact h2
      · rw [if_neg hc] at hp
        obtain ⟨l', h1, h2, h3⟩ := insertAt_none hr v
        refine ⟨_, l', _, ?_, ⟨_, [], w, B, hf, rfl, rfl, rfl⟩, ?_, h3⟩
        · simp only [step, insertBefore, hp, Option.bind_some, List.getLast?_nil, Option.map_none, h1]; rfl
        · rw [if_neg (by simp [hc])]; exact h2
    · rw [List.concat_eq_append] at *
      have hp' : getPrev (nodeCreate l v).2 p = some (some a) := by
        rw [hp]
        split <;> simp [List.getLast?_eq_head?_reverse, -List.head?_reverse]
      rw [List.append_assoc] at hr
      obtain ⟨l', h1, h2, h3⟩ := insertAt_some hr v
      refine ⟨_, l', _, ?_, ⟨_, A ++ [(a, u)], w, B, hf, rfl, rfl, rfl⟩, ?_, h3⟩
      · simp only [step, insertBefore, hp', Option.bind_some, h1]; rfl
      · rw [if_neg (by simp)]; simpa using h2
  | insertAfter p v =>
    obtain ⟨A, w, B, rfl⟩ := split_of_mem hok
    obtain ⟨l', h1, h2, h3⟩ := insertAt_some hr v
    refine ⟨_, l', _, ?_, ⟨_, A, w, B, hf, rfl, rfl, rfl⟩, h2, h3⟩
    have : ((nodeCreate l v).2.val p).isSome := (created hr v).1.live p (by simp)
    simp only [step, insertAfter, this, if_true, h1]; rfl
  | take p =>
    obtain ⟨A, w, B, rfl⟩ := split_of_mem hok.1
    obtain ⟨l', h1, h2, h3⟩ := take_spec hr (by
      intro hc h
      have := hok.2 hc
      rw [List.append_eq_nil_iff] at h
      simp [h.1, h.2] at this)
    exact ⟨_, l', _, by simp only [step, h1]; rfl, ⟨A, w, B, rfl, rfl, rfl⟩, h2, h3⟩
  | moveBefore m b =>
    by_cases hmb : m = b
    · subst hmb
      exact ⟨.bool false, l, s, by simp [step, moveBefore], by simp [Spec], hr, rfl⟩
    · obtain ⟨A, v, B, rfl⟩ := split_of_mem hok.1
      have hb : b ∈ (A ++ B).map (·.1) := by
        have := hok.2
        simp only [List.map_append, List.map_cons, List.mem_append, List.mem_cons] at this ⊢
        grind
      obtain ⟨C, w, D, hCD⟩ := split_of_mem hb
      obtain ⟨l', h1, h2, h3⟩ := sim_moveBefore hr hCD
      refine ⟨_, l', _, by simp only [step, h1]; rfl, ?_, h2, h3⟩
      rw [Spec, if_neg hmb]
      exact ⟨A, v, B, C, w, D, rfl, hCD, rfl, rfl⟩
  | moveAfter m b =>
    by_cases hmb : m = b
    · subst hmb
      exact ⟨.bool false, l, s, by simp [step, moveAfter], by simp [Spec], hr, rfl⟩
    · obtain ⟨A, v, B, rfl⟩ := split_of_mem hok.1
      have hb : b ∈ (A ++ B).map (·.1) := by
        have := hok.2
        simp only [List.map_append, List.map_cons, List.mem_append, List.mem_cons] at this ⊢
        grind
      obtain ⟨C, w, D, hCD⟩ := split_of_mem hb
      obtain ⟨l', h1, h2, h3⟩ := sim_moveAfter hr hCD
      refine ⟨_, l', _, by simp only [step, h1]; rfl, ?_, h2, h3⟩
      rw [Spec, if_neg hmb]
      exact ⟨A, v, B, C, w, D, rfl, hCD, rfl, rfl⟩
  | setFirst p =>
    obtain ⟨A, w, B, rfl⟩ := split_of_mem hok
    obtain ⟨l', h1, h2, h3⟩ := sim_setFirst hr
    exact ⟨_, l', _, by simp only [step, h1]; rfl, ⟨A, w, B, rfl, rfl, rfl⟩, h2, h3⟩
  | setLast p =>
    obtain ⟨A, w, B, rfl⟩ := split_of_mem hok
    obtain ⟨l', h1, h2, h3⟩ := sim_setLast hr
    exact ⟨_, l', _, by simp only [step, h1]; rfl, ⟨A, w, B, rfl, rfl, rfl⟩, h2, h3⟩
  | len => exact ⟨_, l, s, rfl, ⟨rfl, by rw [hr.len]⟩, hr, rfl⟩
  | first => exact ⟨_, l, s, rfl, ⟨rfl, by rw [hr.str.head, List.head?_map]⟩, hr, rfl⟩
  | last => exact ⟨_, l, s, rfl, ⟨rfl, by rw [hr.str.tail, List.getLast?_map]⟩, hr, rfl⟩
  | next p =>
    obtain ⟨A, w, B, rfl⟩ := split_of_mem hok
    exact ⟨_, l, _, by simp only [step, hr.next_eq]; rfl, ⟨A, w, B, rfl, rfl, rfl⟩, hr, rfl⟩
  | prev p =>
    obtain ⟨A, w, B, rfl⟩ := split_of_mem hok
    exact ⟨_, l, _, by simp only [step, hr.prev_eq]; rfl, ⟨A, w, B, rfl, rfl, rfl⟩, hr, rfl⟩
  | val p =>
    obtain ⟨A, w, B, rfl⟩ := split_of_mem hok
    have : l.val p = some w := hr.vals (p, w) (by simp)
    exact ⟨_, l, _, by simp only [step, this]; rfl, ⟨A, w, B, rfl, rfl, rfl⟩, hr, rfl⟩
  | find eq =>
    have := findLoop_spec (l := l) eq (l.elements + 1) (S := []) (T := s) hr (by rw [hr.len]; omega)
    rw [← List.head?_map, ← hr.str.head] at this
    exact ⟨_, l, s, by simp only [step, find, this]; rfl, ⟨rfl, rfl⟩, hr, rfl⟩
  | count eq =>
    have := countLoop_spec (l := l) eq (l.elements + 1) (S := []) (T := s) 0 hr (by rw [hr.len]; omega)
    rw [← List.head?_map, ← hr.str.head] at this
    exact ⟨_, l, s, by simp only [step, count, this]; rfl, ⟨rfl, by simp⟩, hr, rfl⟩
  | removeVal eq all =>
    cases all with
    | true =>
      cases s with
      | nil =>
        refine ⟨.num 0, l, [], ?_, ⟨by simp, rfl⟩, hr, rfl⟩
        have : l.head = none := hr.str.head
        simp [step, removeVal, this, matchLoop]
      | cons e s =>
        have hh : l.head = some e.1 := hr.str.head
        have hnd := hr.str.nodup
        obtain ⟨l', h1, h2, h3⟩ := removeLoop_spec eq l.head (l.elements + 1) (S := []) (T := e :: s) 0 hr
          (by rw [hr.len]; omega)
          (by
            intro p hp
            rw [hh]
            simp only [List.map_cons, List.nodup_cons] at hnd
            intro h
            exact hnd.1 (List.mem_map.2 ⟨p, hp, by simpa using h⟩))
          (by simp [hh]) (by simp) (fun hc _ p hp => ⟨hok hc p hp, rfl⟩)
        rw [← List.head?_map, ← hr.str.head] at h1
        exact ⟨_, l', _, by simp only [step, removeVal, h1]; rfl, ⟨by simp, rfl⟩, h2, h3⟩
    | false =>
      obtain ⟨l', h1, h2, h3⟩ := removeFirstLoop_spec eq (l.elements + 1) (S := []) (T := s) hr (by rw [hr.len]; omega) hok
      rw [← List.head?_map, ← hr.str.head] at h1
      exact ⟨_, l', _, by simp only [step, removeVal, h1]; rfl, ⟨rfl, rfl⟩, h2, h3⟩
  | forward =>
    have := walkLoop_spec (l := l) (l.elements + 1) (S := []) (T := s) hr (by rw [hr.len]; omega)
    rw [← List.head?_map, ← hr.str.head] at this
    exact ⟨_, l, s, by simp only [step, walk, this]; rfl, ⟨rfl, rfl⟩, hr, rfl⟩
  | backward =>
    have := walkBackLoop_spec (l := l) (l.elements + 1) (S := s) (T := []) (by simpa using hr) (by rw [hr.len]; omega)
    rw [← List.getLast?_map, ← hr.str.tail] at this
    exact ⟨_, l, s, by simp only [step, walkBack, this]; rfl, ⟨rfl, rfl⟩, hr, rfl⟩

theorem create_rep (circ : Bool) : Rep (create circ : L α) [] := by
  refine ⟨⟨List.nodup_nil, ?_, rfl, rfl, by simp⟩, by simp, fun _ _ => rfl, rfl, by simp⟩
  intro A x B h
  simp at h

theorem sim_run (ops : List (Op α)) : ∀ {l : L α} {s : List (Nat × α)}, Rep l s →
    (∃ rs l' s', run l ops = some (rs, l') ∧ SpecRun l.circular s ops rs s' ∧ Rep l' s') ∨
    (∃ pre op post rs s', ops = pre ++ op :: post ∧ SpecRun l.circular s pre rs s' ∧ ¬ Ok l.circular s' op) := by
  induction ops with
  | nil => intro l s hr; exact Or.inl ⟨[], l, s, rfl, .nil s, hr⟩
  | cons op ops ih =>
    intro l s hr
    by_cases hok : Ok l.circular s op
    · obtain ⟨r, l1, s1, h1, h2, h3, h4⟩ := sim_step hr op hok
      rcases ih h3 with ⟨rs, l', s', k1, k2, k3⟩ | ⟨pre, op', post, rs, s', k1, k2, k3⟩
      · rw [h4] at k2
        exact Or.inl ⟨r :: rs, l', s', by simp [run, h1, k1], .cons h2 k2, k3⟩
      · rw [h4] at k2 k3
        exact Or.inr ⟨op :: pre, op', post, r :: rs, s', by rw [k1]; rfl, .cons h2 k2, k3⟩
    · exact Or.inr ⟨[], op, ops, [], s, rfl, .nil s, hok⟩

/-- C14: every history of calls on a linked list behaves as on a sequence of nodes, never touches a freed node and leaves
a structure in which following `next` from the first and `prev` from the last node meets the same nodes in opposite
orders - unless at some point the caller breaks the rules `Ok`.  Partial: for circular lists the rules exclude removing
the only node and a `remove_val` of all matches that removes the first node. -/
theorem llist_correct_partial (circ : Bool) (ops : List (Op α)) :
    (∃ rs l' s, run (create circ) ops = some (rs, l') ∧ SpecRun circ [] ops rs s ∧
      (∃ l'', run l' [.forward, .backward] = some ([.vals (s.map (·.2)), .vals (s.map (·.2)).reverse], l'')) ∧
      (∀ i, (l'.val i).isSome ↔ i ∈ s.map (·.1))) ∨
    (∃ pre op post rs s, ops = pre ++ op :: post ∧ SpecRun circ [] pre rs s ∧ ¬ Ok circ s op) := by
  rcases sim_run ops (create_rep (α := α) circ) with ⟨rs, l', s', h1, h2, h3⟩ | h
  · refine Or.inl ⟨rs, l', s', h1, h2, ?_, ?_⟩
    · obtain ⟨r1, l1, s1, k1, k2, k3, _⟩ := sim_step h3 .forward trivial
      obtain ⟨r2, l2, s2, j1, j2, j3, _⟩ := sim_step k3 .backward trivial
      obtain ⟨rfl, rfl⟩ := k2
      obtain ⟨rfl, rfl⟩ := j2
      exact ⟨l2, by simp [run, k1, j1]⟩
    · intro i
      constructor
      · intro h
        by_cases hi : i ∈ s'.map (·.1)
        · exact hi
        · rw [h3.dead i hi] at h; cases h
      · exact h3.str.live i
  · exact Or.inr h

theorem insertVals_spec (vs : List α) : ∀ {l : L α} {s}, Rep l s →
    ∃ l' s', insertVals l vs = some l' ∧ Rep l' s' ∧ s'.map (·.2) = s.map (·.2) ++ vs ∧ l'.circular = l.circular := by
  induction vs with
  | nil => intro l s hr; exact ⟨l, s, rfl, hr, by simp, rfl⟩
  | cons v vs ih =>
    intro l s hr
    obtain ⟨l1, h1, h2, h3⟩ := insert_spec hr v
    obtain ⟨l2, s2, k1, k2, k3, k4⟩ := ih h2
    exact ⟨l2, s2, by simp only [insertVals, h1, Option.bind_some, k1], k2, by rw [k3]; simp, by rw [k4, h3]⟩

/-- C14, duplicate: the copy of a list reached by any history holds the same values in the same order, and any further
history on it behaves as on that sequence. -/
theorem duplicate_correct (circ : Bool) (ops : List (Op α)) {rs l'} (hrun : run (create circ) ops = some (rs, l'))
    (hok : ¬ ∃ pre op post rs s, ops = pre ++ op :: post ∧ SpecRun circ [] pre rs s ∧ ¬ Ok circ s op) :
    ∃ s d s2, SpecRun circ [] ops rs s ∧ duplicate l' (s.length + 1) = some d ∧ s2.map (·.2) = s.map (·.2) ∧
      ∀ ops2, (∃ rs2 d2 s3, run d ops2 = some (rs2, d2) ∧ SpecRun circ s2 ops2 rs2 s3) ∨
        (∃ pre op post rs s, ops2 = pre ++ op :: post ∧ SpecRun circ s2 pre rs s ∧ ¬ Ok circ s op) := by
  rcases sim_run ops (create_rep (α := α) circ) with ⟨rs', l2, s, h1, h2, h3⟩ | h
  · rw [hrun] at h1
    cases h1
    have hc : l'.circular = circ := by
      have : ∀ (ops : List (Op α)) {l : L α} {s rs l'}, Rep l s → run l ops = some (rs, l') →
          (¬ ∃ pre op post rs s', ops = pre ++ op :: post ∧ SpecRun l.circular s pre rs s' ∧ ¬ Ok l.circular s' op) →
          l'.circular = l.circular := by
        intro ops
        induction ops with
        | nil => intro l s rs l' _ h _; cases h; rfl
        | cons op ops ih =>
          intro l s rs l' hr h hno
          have hok : Ok l.circular s op := by
            apply Classical.byContradiction
            intro hn
            exact hno ⟨[], op, ops, [], s, rfl, .nil s, hn⟩
          obtain ⟨r, l1, s1, j1, j2, j3, j4⟩ := sim_step hr op hok
          simp only [run, j1] at h
          cases hr1 : run l1 ops with
          | none => rw [hr1] at h; cases h
          | some x =>
            rw [hr1] at h
            cases h
            rw [← j4]
            refine ih j3 hr1 ?_
            rintro ⟨pre, op', post, rs, s', k1, k2, k3⟩
            rw [j4] at k2 k3
            exact hno ⟨op :: pre, op', post, r :: rs, s', by rw [k1]; rfl, .cons j2 k2, k3⟩
      exact this ops (create_rep circ) hrun hok
    have hw := walkLoop_spec (l := l') (s.length + 1) (S := []) (T := s) h3 (by omega)
    rw [← List.head?_map, ← h3.str.head] at hw
    obtain ⟨d, s2, k1, k2, k3, k4⟩ := insertVals_spec (s.map (·.2)) (create_rep (α := α) l'.circular)
    refine ⟨s, d, s2, h2, ?_, by simpa using k3, fun ops2 => ?_⟩
    · simp only [duplicate, walk, hw, Option.bind_some, k1]
    · have : d.circular = circ := by rw [k4]; exact hc
      rcases sim_run ops2 k2 with ⟨rs2, d2, s3, j1, j2, j3⟩ | h
      · rw [this] at j2; exact Or.inl ⟨rs2, d2, s3, j1, j2⟩
      · rw [this] at h; exact Or.inr h
  · exact absurd h hok

/-- A history that meets the rules: nodes 0..3, one taken, one moved. -/
example : (run (create true : L Nat) [.insert 10, .insert 11, .insertFirst 12, .insertBefore 1 13, .moveBefore 0 2, .take 1,
      .setFirst 3, .forward, .backward, .removeVal (· == 12) false, .forward]).map (fun x => x.1.drop 7) =
    some [.vals [13, 10, 12], .vals [12, 10, 13], .num 1, .vals [13, 10]] := by decide +kernel

/-- C14 is violated for circular lists: after removing the only node, `M_llist_first` still returns it
(`base/list/m_llist.c:184-211`: head and tail are set to the node's own links, which point to itself); using the returned
node touches freed memory. -/
theorem circular_remove_only_fails :
    ((run (create true : L Nat) [.insert 10, .take 0, .len, .first]).map (·.1) =
      some [.node (some 0), .val 10, .num 0, .node (some 0)]) ∧
    run (create true : L Nat) [.insert 10, .take 0, .insert 11] = none := by decide +kernel

/-- C14 is violated for circular lists: `M_llist_remove_val` with M_LLIST_MATCH_ALL removing the first node never ends;
the loop waits for the removed node to come round again (`base/list/m_llist.c:420-424`). -/
theorem circular_removeAll_fails (fuel : Nat) :
    (run (create true : L Nat) [.insert 10, .insert 11, .insert 12]).bind (fun x => removeVal x.2 (· == 10) true fuel) =
      none := by
  have key : ∀ fuel (l : L Nat) (c : Nat), (l.val 1 = some 11) → l.val 2 = some 12 → l.next 1 = some 2 → l.next 2 = some 1 →
      matchLoop (· == 10) true true (some 0) fuel l (some 1) c = none ∧
      matchLoop (· == 10) true true (some 0) fuel l (some 2) c = none := by
    intro fuel
    induction fuel with
    | zero => intros; exact ⟨rfl, rfl⟩
    | succ n ih =>
      intro l c h1 h2 h3 h4
      obtain ⟨i1, i2⟩ := ih l c h1 h2 h3 h4
      constructor
      · rw [matchLoop_step (nxt := some 2) (w := 11) (cnt2 := c) (l2 := l) (by simp [getNext, h1, h3]) h1 (by simp)]
        simpa using i2
      · rw [matchLoop_step (nxt := some 1) (w := 12) (cnt2 := c) (l2 := l) (by simp [getNext, h2, h4]) h2 (by simp)]
        simpa using i1
  obtain ⟨rs, l, l2, h0, h1, hh, hn, hv, v1, v2, n1, n2⟩ : ∃ rs l l2,
      run (create true : L Nat) [.insert 10, .insert 11, .insert 12] = some (rs, l) ∧ takeNode l 0 = some (10, l2) ∧
      l.head = some 0 ∧ getNext l 0 = some (some 1) ∧ l.val 0 = some 10 ∧ l2.val 1 = some 11 ∧ l2.val 2 = some 12 ∧
      l2.next 1 = some 2 ∧ l2.next 2 = some 1 := ⟨_, _, _, rfl, rfl, rfl, rfl, rfl, rfl, rfl, rfl, rfl⟩
  rw [h0, Option.bind_some]
  show removeVal l _ true fuel = none
  unfold removeVal
  rw [hh]
  cases fuel with
  | zero => rfl
  | succ n =>
    rw [matchLoop_step (nxt := some 1) (w := 10) (cnt2 := 1) (l2 := l2) hn hv (by simp [h1])]
    simpa using (key n l2 1 v1 v2 n1 n2).1

end Verif.LList
