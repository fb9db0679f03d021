import Verif.SkipList.Find
/- Removal, for C88. -/
namespace Verif.SkipList

variable {α : Type _}

/-- The state after unlinking. -/
def unlinked (s : S α) (i : Nat) (A B : List (E α)) : S α :=
  { s with
    next := fun q j => if j = i ∧ some q = lst none A then hd B none else s.next q j
    prev := fun q j => if j = i ∧ some q = hd B none then lst none A else s.prev q j
    head := fun j => if j = i ∧ A = [] then hd B none else s.head j
    tail := if i = 0 ∧ B = [] then lst none A else s.tail }

local macro "upds" : tactic => `(tactic| (and_intros <;> (try rfl) <;> funext q <;> (try funext j) <;> simp only [upd2, upd] <;> grind))

theorem unlink_eq {s : S α} {i : Nat} {A B : List (E α)} {e : E α} (hl : Lay s i (A ++ e :: B)) (hn : (ids (A ++ e :: B)).Nodup) :
    unlinkAt s e.1 i = some (unlinked s i A B) := by
  have upd2_ne : ∀ (f : Nat → Nat → Option Nat) p q i v, p ≠ q → upd2 f p i v q i = f q i := fun f p q i v h => by simp [upd2, h.symm]
  have hce := hl.cells e (by simp)
  have hi := hl.lev e (by simp)
  have hnx : s.next e.1 i = hd B none := by
    have := hl.next (A := A) (B := B) (e := e) rfl
    rw [getNext, hl.valid (by simp), if_pos rfl] at this
    exact Option.some.inj this
  have hpv : s.prev e.1 i = lst none A := by
    have := hl.prev (A := A) (B := B) (e := e) rfl
    rw [getPrev, hl.valid (by simp), if_pos rfl] at this
    exact Option.some.inj this
  have hlt := hl.lt
  rcases List.eq_nil_or_concat A with rfl | ⟨A0, a, rfl⟩
  · cases B with
    | nil =>
      clear hl hn
      by_cases h0 : i = 0
      · subst h0
        simp [unlinkAt, getNext, getPrev, valid, hce, hi, hnx, hpv, setHead, hlt, unlinked]
        upds
      · simp [unlinkAt, getNext, getPrev, valid, hce, hi, hnx, hpv, setHead, hlt, unlinked, h0]
        upds
    | cons b B' =>
      have hcb := hl.cells b (by simp)
      have hib := hl.lev b (by simp)
      have heb : ¬ b.1 = e.1 := by intro h; simp [ids, h] at hn
      clear hl hn
      simp [unlinkAt, getNext, getPrev, setPrev, valid, hce, hi, hcb, hib, hnx, hpv, setHead, hlt, unlinked, upd2_ne, heb]
      upds
  · rw [List.concat_eq_append] at *
    have hca := hl.cells a (by simp)
    have hia := hl.lev a (by simp)
    have hea : ¬ a.1 = e.1 := by intro h; simp [ids, h, List.nodup_append] at hn
    cases B with
    | nil =>
      clear hl hn
      by_cases h0 : i = 0
      · subst h0
        simp [unlinkAt, getNext, getPrev, valid, hce, hi, hnx, hpv, hca, hia, setNext, unlinked]
        upds
      · simp [unlinkAt, getNext, getPrev, valid, hce, hi, hnx, hpv, hca, hia, setNext, unlinked, h0]
        upds
    | cons b B' =>
      have hcb := hl.cells b (by simp)
      have hib := hl.lev b (by simp)
      have heb : ¬ b.1 = e.1 := by intro h; simp [ids, h, List.nodup_append] at hn
      clear hl hn
      simp [unlinkAt, getNext, getPrev, setPrev, setNext, valid, hce, hi, hcb, hib, hca, hia, hnx, hpv, unlinked, upd2_ne, heb]
      upds

theorem unlinked_same (s : S α) (i : Nat) (A B : List (E α)) : Same s (unlinked s i A B) i :=
  ⟨rfl, rfl, rfl, rfl, fun p j h => by simp [unlinked, h], fun p j h => by simp [unlinked, h], fun j h => by simp [unlinked, h]⟩

theorem unlinked_level {s : S α} {i : Nat} {A B : List (E α)} {e : E α} (hl : Lay s i (A ++ e :: B)) (hn : (ids (A ++ e :: B)).Nodup) :
    Level (unlinked s i A B) i (A ++ B) := by
  refine ⟨?_, linked_remove A B e hl.level.2 hn ?_ ?_⟩
  · have := hl.level.1
    cases A with
    | nil => simp [unlinked]
    | cons a A' => simpa [unlinked] using this
  · intro x hx; simp [unlinked]
  · intro x hx; simp [unlinked]

theorem unlinkLoop_ok {A B : List (E α)} {e : E α} (hn : (ids (A ++ e :: B)).Nodup) (hpos : ∀ x ∈ A ++ e :: B, 1 ≤ x.2.2) :
    ∀ (i : Nat) (s : S α), (∀ x ∈ A ++ e :: B, s.cell x.1 = some x.2) → i ≤ s.levels → i ≤ e.2.2 → (∀ j, j < i → Level s j (lay j (A ++ e :: B))) →
    ∃ s', unlinkLoop e.1 i s = some s' ∧ s'.cell = s.cell ∧ s'.levels = s.levels ∧ s'.elements = s.elements ∧ s'.fresh = s.fresh ∧
      (∀ j, i ≤ j → s'.head j = s.head j ∧ ∀ p, s'.next p j = s.next p j ∧ s'.prev p j = s.prev p j) ∧
      (∀ j, j < i → Level s' j (lay j (A ++ B))) ∧ (0 < i → s'.tail = if B = [] then lst none A else s.tail) := by
  intro i
  induction i with
  | zero =>
    intro s _ _ _ _
    exact ⟨s, rfl, rfl, rfl, rfl, rfl, by intros; simp, by intros; omega, by intros; omega⟩
  | succ i ih =>
    intro s hcells hi hie hlevels
    have hcons : lay i (A ++ e :: B) = lay i A ++ e :: lay i B := by
      rw [lay_append]; congr 1; exact List.filter_cons_of_pos (by simp; omega)
    have hlay : Lay s i (lay i A ++ e :: lay i B) := by
      rw [← hcons]
      exact ⟨fun x hx => hcells x (mem_lay.1 hx).1, fun x hx => (mem_lay.1 hx).2, hlevels i (by omega), by omega⟩
    have hn1 : (ids (lay i A ++ e :: lay i B)).Nodup := by rw [← hcons]; exact lay_nodup hn
    rw [unlinkLoop, unlink_eq hlay hn1, Option.bind_some]
    have hsame := unlinked_same s i (lay i A) (lay i B)
    obtain ⟨s', h1, h2, h3, h4, h5, h6, h7, h8⟩ := ih (unlinked s i (lay i A) (lay i B)) hcells (by show i ≤ s.levels; omega) (by omega)
      (fun j hj => hsame.level (by omega) (hlevels j (by omega)))
    refine ⟨s', h1, h2, h3, h4, h5, ?_, ?_, ?_⟩
    · intro j hj
      obtain ⟨x1, x2⟩ := h6 j (by omega)
      refine ⟨by rw [x1, hsame.head j (by omega)], fun p => ⟨by rw [(x2 p).1, hsame.next p j (by omega)], by rw [(x2 p).2, hsame.prev p j (by omega)]⟩⟩
    · intro j hj
      by_cases hji : j < i
      · exact h7 j hji
      · obtain rfl : j = i := by omega
        have hx := h6 j (by omega)
        rw [lay_append]
        exact level_congr (unlinked_level hlay hn1) hx.1 fun x _ => hx.2 x
    · intro _
      have hA0 : lay 0 A = A := lay_zero fun x hx => hpos x (by simp [hx])
      have hB0 : lay 0 B = B := lay_zero fun x hx => hpos x (by simp [hx])
      by_cases hi0 : i = 0
      · subst hi0
        simp only [unlinkLoop, Option.some.injEq] at h1
        subst h1
        simp [unlinked, hA0, hB0]
      · rw [h8 (by omega)]
        simp [unlinked, hi0]

theorem trim_ok (head : Nat → Option Nat) : ∀ n, 1 ≤ n → 1 ≤ trim head n ∧ trim head n ≤ n ∧ ∀ j, trim head n ≤ j → j < n → head j = none
  | 0, h => by omega
  | 1, _ => by simp [trim]; omega
  | n + 2, _ => by
    rw [trim]
    split
    · rename_i h
      obtain ⟨h1, h2, h3⟩ := trim_ok head (n + 1) (by omega)
      refine ⟨h1, by omega, fun j h4 h5 => ?_⟩
      by_cases hj : j = n + 1
      · rw [hj]; exact h
      · exact h3 j h4 (by omega)
    · exact ⟨by omega, by omega, fun j _ _ => by omega⟩

theorem takeNode_ok {s : S α} {A B : List (E α)} {e : E α} (hr : Rep s (A ++ e :: B)) :
    ∃ s', takeNode s e.1 = some (e.2.1, s') ∧ Rep s' (A ++ B) := by
  have hmem : e ∈ A ++ e :: B := by simp
  have hlev := hr.lev e hmem
  obtain ⟨s', h1, h2, h3, h4, h5, h6, h7, h8⟩ := unlinkLoop_ok hr.nodup (fun x hx => (hr.lev x hx).1) e.2.2 s hr.cells hlev.2 (Nat.le_refl _)
    (fun j hj => hr.level j (by omega))
  refine ⟨_, by rw [takeNode, hr.cells e hmem]; simp only [Option.bind_some, h1, Option.map_some]; rfl, ?_⟩
  have hids : ids (A ++ e :: B) = ids A ++ e.1 :: ids B := by simp [ids]
  have hnd := hr.nodup
  rw [hids] at hnd
  have hne : ∀ x ∈ ids (A ++ B), x ≠ e.1 := by
    intro x hx
    rw [ids_append] at hx
    rintro rfl
    grind
  have hsub : ∀ x ∈ A ++ B, x ∈ A ++ e :: B := by intro x hx; simp at hx ⊢; grind
  -- every level of the state after the loop
  have hall : ∀ j, j < s.levels → Level s' j (lay j (A ++ B)) := by
    intro j hj
    by_cases hje : j < e.2.2
    · exact h7 j hje
    · have hx := h6 j (by omega)
      have : lay j (A ++ B) = lay j (A ++ e :: B) := by
        rw [lay_append, lay_append]
        congr 1
        exact (List.filter_cons_of_neg (by simp; omega)).symm
      rw [this]
      exact level_congr (hr.level j hj) hx.1 fun x _ => hx.2 x
  obtain ⟨t1, t2, t3⟩ := trim_ok s'.head s'.levels (by rw [h3]; exact hr.pos)
  refine ⟨?_, ?_, ?_, ?_, t1, ?_, ?_, ?_, ?_⟩
  · rw [ids_append]; grind
  · intro x hx
    show upd s'.cell e.1 none x.1 = _
    rw [h2, upd, if_neg (hne x.1 (List.mem_map_of_mem hx))]
    exact hr.cells x (hsub x hx)
  · intro p hp
    show upd s'.cell e.1 none p = _
    rw [h2, upd]
    split
    · rfl
    · rename_i hpe
      refine hr.dead p ?_
      rw [hids]
      rw [ids_append] at hp
      simp at hp ⊢
      exact ⟨hp.1, hpe, hp.2⟩
  · intro x hx
    have hl := hr.lev x (hsub x hx)
    refine ⟨hl.1, ?_⟩
    show x.2.2 ≤ trim s'.head s'.levels
    by_cases hlt : x.2.2 ≤ trim s'.head s'.levels
    · exact hlt
    · exfalso
      have hj : trim s'.head s'.levels < s.levels := by omega
      have hh := t3 _ (Nat.le_refl _) (by omega)
      have hl2 := (hall _ hj).1
      rw [hh] at hl2
      cases hL : lay (trim s'.head s'.levels) (A ++ B) with
      | nil =>
        have : x ∈ lay (trim s'.head s'.levels) (A ++ B) := mem_lay.2 ⟨hx, by omega⟩
        rw [hL] at this
        cases this
      | cons f r => rw [hL] at hl2; cases hl2
  · intro j hj
    have hj : j < s.levels := by
      have : j < trim s'.head s'.levels := hj
      omega
    refine level_congr (hall j hj) rfl fun x hx => ?_
    have := hne x ((((lay_sub j (A ++ B)).map _).subset) hx)
    simp [this]
  · show s'.tail = _
    rw [h8 (by omega), hr.tail, lst_append, lst_append, lst_cons]
    cases B <;> simp
  · show s'.elements - 1 = _
    rw [h4, hr.len]; simp
  · intro p hp
    show p < s'.fresh
    rw [h5]
    refine hr.fresh p ?_
    rw [hids]; rw [ids_append] at hp
    simp at hp ⊢; grind

/-! ### Operations on all matches -/

theorem sorted_sub {cmp : α → α → Int} {l l' : List (E α)} (h : Sorted cmp l) (hs : l'.Sublist l) : Sorted cmp l' := List.Pairwise.sublist hs h

/-- The entries an operation applies to. -/
def hit [DecidableEq α] (cmp : α → α → Int) (v : α) (ptr : Bool) (x : E α) : Bool := if ptr then decide (x.2.1 = v) else decide (cmp x.2.1 v = 0)

theorem hit_eq [DecidableEq α] {cmp : α → α → Int} (hc : LawfulCmp cmp) (v : α) (ptr : Bool) (x : E α) :
    (decide (cmp v x.2.1 = 0) && (!ptr || decide (v = x.2.1))) = hit cmp v ptr x := by
  have h1 := hc.eq_swap v x.2.1
  have h2 := hc.refl v
  cases ptr
  · simp [hit, h1]
  · simp only [hit]
    by_cases h : v = x.2.1
    · simp [← h, h2]
    · simp [h, Ne.symm h]

theorem no_hit [DecidableEq α] {cmp : α → α → Int} (hc : LawfulCmp cmp) {v : α} {ptr : Bool} {x : E α} (h : cmp v x.2.1 ≠ 0) : hit cmp v ptr x = false := by
  rw [← hit_eq hc, decide_eq_false h]; rfl

theorem countLoop_ok [DecidableEq α] {cmp : α → α → Int} (hc : LawfulCmp cmp) {s : S α} {l} (hr : Rep s l) (hs : Sorted cmp l) (v : α) (ptr all : Bool) :
    ∀ (B : List (E α)) (fuel : Nat) (A : List (E α)) (cnt : Nat), l = A ++ B → (∀ b ∈ B, cmp v b.2.1 ≤ 0) → B.length < fuel →
    matchLoop cmp v ptr all false fuel s (hd B none) cnt = some (cnt + B.countP (hit cmp v ptr), s) := by
  intro B
  induction B with
  | nil => intro fuel A cnt _ _ _; cases fuel <;> rfl
  | cons e B ih =>
    intro fuel A cnt he hB hf
    obtain ⟨fuel, rfl⟩ : ∃ k, fuel = k + 1 := ⟨fuel - 1, by simp at hf; omega⟩
    have hem : e ∈ l := by rw [he]; simp
    simp only [hd_cons, matchLoop, hr.lay0.next he, hr.lay0.val hem, Option.bind_some, hit_eq hc]
    have hih := fun cnt => ih fuel (A ++ [e]) cnt (by rw [he]; simp) (fun b hb => hB b (by simp [hb])) (by simp at hf; omega)
    by_cases h0 : cmp v e.2.1 = 0
    · cases hm : hit cmp v ptr e
      · simp [h0, hih, hm]
      · simp [h0, hih, hm, List.countP_cons]; omega
    · have hm := no_hit hc (ptr := ptr) h0
      have hlt : cmp v e.2.1 < 0 := by have := hB e (by simp); omega
      have : (e :: B).countP (hit cmp v ptr) = 0 := by
        rw [List.countP_eq_zero]
        intro x hx
        have hsp := hs
        rw [he] at hsp
        have := sorted_suffix_lt hc (List.pairwise_append.1 hsp).2.1 hlt x hx
        rw [no_hit hc (by omega)]; simp
      simp [h0, hm, this]

theorem removeLoop_ok [DecidableEq α] {cmp : α → α → Int} (hc : LawfulCmp cmp) (v : α) (ptr all : Bool) :
    ∀ (B : List (E α)) (fuel : Nat) (A : List (E α)) (s : S α) (cnt : Nat), Rep s (A ++ B) → Sorted cmp (A ++ B) → (∀ b ∈ B, cmp v b.2.1 ≤ 0) → B.length < fuel →
    (all = false → cnt = 0) →
    ∃ s', matchLoop cmp v ptr all true fuel s (hd B none) cnt =
        some (cnt + (if all then B.countP (hit cmp v ptr) else if B.any (hit cmp v ptr) then 1 else 0), s') ∧
      Rep s' (A ++ if all then B.filter (fun x => !hit cmp v ptr x) else B.eraseP (hit cmp v ptr)) := by
  intro B
  induction B with
  | nil => intro fuel A s cnt hr _ _ _ _; exact ⟨s, by cases fuel <;> cases all <;> rfl, by cases all <;> simpa using hr⟩
  | cons e B ih =>
    intro fuel A s cnt hr hs hB hf hcnt
    obtain ⟨fuel, rfl⟩ : ∃ k, fuel = k + 1 := ⟨fuel - 1, by simp at hf; omega⟩
    simp only [hd_cons, matchLoop, hr.lay0.next rfl, hr.lay0.val (e := e) (by simp), Option.bind_some, hit_eq hc]
    have hf' : B.length < fuel := by simp at hf; omega
    have hB' : ∀ b ∈ B, cmp v b.2.1 ≤ 0 := fun b hb => hB b (by simp [hb])
    by_cases h0 : cmp v e.2.1 = 0
    · cases hm : hit cmp v ptr e
      · obtain ⟨s', h1, h2⟩ := ih fuel (A ++ [e]) s cnt (by simpa using hr) (by simpa using hs) hB' hf' hcnt
        refine ⟨s', ?_, ?_⟩
        · have : ¬ (cnt = 1 ∧ all = false) := by rintro ⟨h3, h4⟩; have := hcnt h4; omega
          simp only [h0, h1, hm, List.any_cons, List.countP_cons, Bool.false_or]; simp [this, h1]
        · cases all <;> simpa [hm] using h2
      · obtain ⟨s1, h3, h4⟩ := takeNode_ok hr
        cases all with
        | false =>
          obtain rfl := hcnt rfl
          exact ⟨s1, by simp [h0, hm, h3], by simpa [hm] using h4⟩
        | true =>
          obtain ⟨s', h1, h2⟩ := ih fuel A s1 (cnt + 1) h4 (sorted_sub hs (by simp)) hB' hf' (by simp)
          refine ⟨s', ?_, by simpa [hm] using h2⟩
          simp only [↓reduceIte] at h1
          simp [h0, hm, h3, h1, List.countP_cons]
          omega
    · have hm := no_hit hc (ptr := ptr) h0
      have hlt : cmp v e.2.1 < 0 := by have := hB e (by simp); omega
      have hno : ∀ x ∈ e :: B, hit cmp v ptr x = false := by
        intro x hx
        have := sorted_suffix_lt hc (List.pairwise_append.1 hs).2.1 hlt x hx
        exact no_hit hc (by omega)
      have h1 : (e :: B).countP (hit cmp v ptr) = 0 := by rw [List.countP_eq_zero]; intro x hx; simp [hno x hx]
      have h2 : (e :: B).any (hit cmp v ptr) = false := by rw [List.any_eq_false]; intro x hx; simp [hno x hx]
      have h3 : (e :: B).filter (fun x => !hit cmp v ptr x) = e :: B := List.filter_eq_self.2 fun x hx => by simp [hno x hx]
      have h4 : (e :: B).eraseP (hit cmp v ptr) = e :: B := List.eraseP_of_forall_not fun x hx => by simp [hno x hx]
      refine ⟨s, ?_, ?_⟩
      · rw [h1, h2]; simp [h0, hm]
      · rw [h3, h4]; simpa using hr

/-- Where the search for the first match leads. -/
theorem find_split [DecidableEq α] {cmp : α → α → Int} (hc : LawfulCmp cmp) {s : S α} {l} (hr : Rep s l) (hs : Sorted cmp l) (v : α) (ptr : Bool) :
    ∃ A B, l = A ++ B ∧ (∀ a ∈ A, hit cmp v ptr a = false) ∧ (∀ b ∈ B, cmp v b.2.1 ≤ 0) ∧ find cmp s v ptr = some (hd B none) := by
  rw [find_ok hc hr hs]
  cases hf : l.find? (fun x => if ptr then decide (x.2.1 = v) else decide (cmp x.2.1 v = 0)) with
  | none =>
    refine ⟨l, [], by simp, ?_, by simp, rfl⟩
    intro a ha
    have := List.find?_eq_none.1 hf a ha
    rw [Bool.not_eq_true] at this; exact this
  | some e =>
    obtain ⟨h1, A, B, h2, h3⟩ := List.find?_eq_some_iff_append.1 hf
    refine ⟨A, e :: B, h2, ?_, ?_, rfl⟩
    · intro a ha
      have := h3 a ha
      rw [Bool.not_eq_true'] at this; exact this
    · rw [h2] at hs
      have hs := (List.pairwise_append.1 hs).2.1
      refine sorted_suffix hc hs ?_
      rintro d D' ⟨⟩
      cases ptr
      · simp only [Bool.false_eq_true, ↓reduceIte, decide_eq_true_eq] at h1
        exact Int.le_of_eq ((hc.eq_swap _ _).1 h1)
      · simp only [↓reduceIte, decide_eq_true_eq] at h1
        rw [h1]; exact hc.refl_le v

theorem count_ok [DecidableEq α] {cmp : α → α → Int} (hc : LawfulCmp cmp) {s : S α} {l} (hr : Rep s l) (hs : Sorted cmp l) (v : α) (ptr all : Bool) :
    matchOp cmp s v ptr all false = some (l.countP (hit cmp v ptr), s) := by
  obtain ⟨A, B, h1, h2, h3, h4⟩ := find_split hc hr hs v ptr
  rw [matchOp, h4, Option.bind_some, countLoop_ok hc hr hs v ptr all B _ A 0 h1 h3 (by rw [hr.len, h1]; simp; omega), h1, List.countP_append,
    List.countP_eq_zero (l := A).2 fun a ha => by simp [h2 a ha], Nat.zero_add]

theorem remove_ok [DecidableEq α] {cmp : α → α → Int} (hc : LawfulCmp cmp) {s : S α} {l} (hr : Rep s l) (hs : Sorted cmp l) (v : α) (ptr all : Bool) :
    ∃ s', matchOp cmp s v ptr all true = some (if all then l.countP (hit cmp v ptr) else if l.any (hit cmp v ptr) then 1 else 0, s') ∧
      Rep s' (if all then l.filter (fun x => !hit cmp v ptr x) else l.eraseP (hit cmp v ptr)) := by
  obtain ⟨A, B, h1, h2, h3, h4⟩ := find_split hc hr hs v ptr
  subst h1
  obtain ⟨s', h5, h6⟩ := removeLoop_ok hc v ptr all B (s.elements + 1) A s 0 hr hs h3 (by rw [hr.len]; simp; omega) (by simp)
  refine ⟨s', ?_, ?_⟩
  · rw [matchOp, h4, Option.bind_some, h5, List.countP_append, List.countP_eq_zero (l := A).2 fun a ha => by simp [h2 a ha], List.any_append,
      List.any_eq_false (l := A).2 fun a ha => by simp [h2 a ha], Bool.false_or, Nat.zero_add, Nat.zero_add]
  · cases all
    · rw [if_neg (by simp)] at h6 ⊢
      rwa [List.eraseP_append_right _ fun a ha => by simp [h2 a ha]]
    · rw [if_pos rfl] at h6 ⊢
      rwa [List.filter_append, List.filter_eq_self (l := A).2 fun a ha => by simp [h2 a ha]]

/-! ### Duplicates -/

/-- The same value, or the same pointer. -/
def same [DecidableEq α] (cmp : α → α → Int) (ptr : Bool) (a b : E α) : Bool := if ptr then decide (a.2.1 = b.2.1) else decide (cmp a.2.1 b.2.1 = 0)

theorem dupInner_ok [DecidableEq α] {cmp : α → α → Int} (hc : LawfulCmp cmp) (ptr : Bool) (e : E α) :
    ∀ (B : List (E α)) (fuel : Nat) (A : List (E α)) (s : S α), Rep s (A ++ B) → Sorted cmp (A ++ B) → e ∈ A → B.length < fuel →
    ∃ s', dupInner cmp e.1 ptr fuel s (hd B none) = some s' ∧ Rep s' (A ++ B.filter fun x => !same cmp ptr e x) := by
  intro B
  induction B with
  | nil => intro fuel A s hr _ _ _; exact ⟨s, by cases fuel <;> rfl, by simpa using hr⟩
  | cons b B ih =>
    intro fuel A s hr hs heA hf
    obtain ⟨fuel, rfl⟩ : ∃ k, fuel = k + 1 := ⟨fuel - 1, by simp at hf; omega⟩
    have hf' : B.length < fuel := by simp at hf; omega
    simp only [hd_cons, dupInner, hr.lay0.next rfl, hr.lay0.val (e := b) (by simp), hr.lay0.val (e := e) (by simp [heA]), Option.bind_some]
    rw [show (if ptr then decide (e.2.1 = b.2.1) else decide (cmp e.2.1 b.2.1 = 0)) = same cmp ptr e b from rfl]
    have hsame0 : same cmp ptr e b = true → cmp e.2.1 b.2.1 = 0 := by
      cases ptr
      · simp [same]
      · simp only [same, ↓reduceIte, decide_eq_true_eq]
        intro h; rw [h]; exact hc.refl _
    by_cases h0 : cmp e.2.1 b.2.1 = 0
    · cases hm : same cmp ptr e b
      · obtain ⟨s', h1, h2⟩ := ih fuel (A ++ [b]) s (by simpa using hr) (by simpa using hs) (by simp [heA]) hf'
        exact ⟨s', by simp [h0, h1], by simpa [hm] using h2⟩
      · obtain ⟨s1, h3, h4⟩ := takeNode_ok hr
        obtain ⟨s', h1, h2⟩ := ih fuel A s1 h4 (sorted_sub hs (by simp)) heA hf'
        exact ⟨s', by simp [h0, h3, h1], by simpa [hm] using h2⟩
    · have hlt : cmp e.2.1 b.2.1 < 0 := by
        have := (List.pairwise_append.1 hs).2.2 e heA b (by simp); omega
      have hno : ∀ x ∈ b :: B, same cmp ptr e x = false := by
        intro x hx
        have := sorted_suffix_lt hc (List.pairwise_append.1 hs).2.1 hlt x hx
        cases ptr
        · simp [same]; omega
        · simp only [same, ↓reduceIte, decide_eq_false_iff_not]
          intro h; rw [h, hc.refl] at this; omega
      refine ⟨s, ?_, ?_⟩
      · simp [h0, hno b (by simp)]
      · rw [List.filter_eq_self.2 fun x hx => by simp [hno x hx]]; exact hr

/-- The list without duplicates. -/
def dd [DecidableEq α] (cmp : α → α → Int) (ptr : Bool) : Nat → List (E α) → List (E α)
  | 0, l => l
  | _, [] => []
  | n + 1, e :: l => e :: dd cmp ptr n (l.filter fun x => !same cmp ptr e x)

theorem dupOuter_ok [DecidableEq α] {cmp : α → α → Int} (hc : LawfulCmp cmp) (ptr : Bool) :
    ∀ (fuel : Nat) (B : List (E α)) (A : List (E α)) (s : S α), Rep s (A ++ B) → Sorted cmp (A ++ B) → B.length < fuel →
    ∃ s', dupOuter cmp ptr fuel s (hd B none) = some s' ∧ Rep s' (A ++ dd cmp ptr fuel B) := by
  intro fuel
  induction fuel with
  | zero => intro B A s _ _ h; omega
  | succ fuel ih =>
    intro B A s hr hs hf
    cases B with
    | nil => exact ⟨s, rfl, hr⟩
    | cons e B =>
      simp only [hd_cons, dupOuter, hr.lay0.next rfl, Option.bind_some]
      obtain ⟨s1, h1, h2⟩ := dupInner_ok hc ptr e B (s.elements + 1) (A ++ [e]) s (by simpa using hr) (by simpa using hs) (by simp)
        (by rw [hr.len]; simp; omega)
      rw [h1, Option.bind_some, h2.lay0.next (A := A) (e := e) (B := B.filter fun x => !same cmp ptr e x) (by simp), Option.bind_some]
      have hsub := List.filter_sublist (p := fun x => !same cmp ptr e x) (l := B)
      obtain ⟨s', h3, h4⟩ := ih (B.filter fun x => !same cmp ptr e x) (A ++ [e]) s1 h2
        (sorted_sub hs (by simpa using hsub)) (by have := hsub.length_le; simp at hf; omega)
      exact ⟨s', h3, by simpa [dd] using h4⟩

theorem removeDuplicates_ok [DecidableEq α] {cmp : α → α → Int} (hc : LawfulCmp cmp) {s : S α} {l} (hr : Rep s l) (hs : Sorted cmp l) (ptr : Bool) :
    ∃ s', removeDuplicates cmp s ptr = some s' ∧ Rep s' (dd cmp ptr (l.length + 1) l) := by
  obtain ⟨s', h1, h2⟩ := dupOuter_ok hc ptr (s.elements + 1) l [] s hr hs (by rw [hr.len]; omega)
  exact ⟨s', by rw [removeDuplicates, hr.lay0.head]; exact h1, by rw [hr.len] at h2; simpa using h2⟩

theorem dd_sub [DecidableEq α] (cmp : α → α → Int) (ptr : Bool) : ∀ (n : Nat) (l : List (E α)), (dd cmp ptr n l).Sublist l
  | 0, l => by simp [dd]
  | n + 1, [] => by simp [dd]
  | n + 1, e :: l => by
    rw [dd]
    exact ((dd_sub cmp ptr n _).trans List.filter_sublist).cons_cons e

theorem same_trans [DecidableEq α] {cmp : α → α → Int} (hc : LawfulCmp cmp) {ptr : Bool} {a b c : E α} (h1 : same cmp ptr a b = true)
    (h2 : same cmp ptr b c = true) : same cmp ptr a c = true := by
  cases ptr
  · simp only [same, Bool.false_eq_true, ↓reduceIte, decide_eq_true_eq] at *
    exact hc.eq_trans h1 h2
  · simp only [same, ↓reduceIte, decide_eq_true_eq] at *
    rw [h1, h2]

theorem dd_mem [DecidableEq α] {cmp : α → α → Int} (hc : LawfulCmp cmp) (ptr : Bool) : ∀ (n : Nat) (l : List (E α)), l.length ≤ n → (ids l).Nodup →
    ∀ A x B, l = A ++ x :: B → (x ∈ dd cmp ptr n l ↔ ∀ a ∈ A, same cmp ptr a x = false) := by
  intro n
  induction n with
  | zero => intro l hl _ A x B h; rw [h] at hl; simp at hl
  | succ n ih =>
    intro l hl hn A x B h
    cases l with
    | nil => simp at h
    | cons e l =>
      rw [dd]
      cases A with
      | nil =>
        simp only [List.nil_append, List.cons.injEq] at h
        simp [h.1]
      | cons a A =>
        simp only [List.cons_append, List.cons.injEq] at h
        obtain ⟨rfl, rfl⟩ := h
        have hne : x ≠ e := by
          rintro rfl
          simp [ids] at hn
        simp only [List.mem_cons, hne, false_or]
        cases hm : same cmp ptr e x
        · rw [ih ((A ++ x :: B).filter fun y => !same cmp ptr e y) (Nat.le_trans List.filter_sublist.length_le (by simpa using hl))
            (List.Nodup.sublist (List.Sublist.map _ List.filter_sublist) (by simp only [ids, List.map_cons, List.nodup_cons] at hn; exact hn.2))
            (A.filter fun y => !same cmp ptr e y) x (B.filter fun y => !same cmp ptr e y) (by rw [List.filter_append, List.filter_cons_of_pos (by simp [hm])])]
          constructor
          · intro h a ha
            rcases ha with rfl | ha
            · exact hm
            · cases hae : same cmp ptr e a
              · exact h a (List.mem_filter.2 ⟨ha, by simp [hae]⟩)
              · cases hax : same cmp ptr a x
                · rfl
                · rw [same_trans hc hae hax] at hm; cases hm
          · intro h a ha
            exact h a (.inr (List.mem_filter.1 ha).1)
        · constructor
          · intro h
            have := (dd_sub cmp ptr n _).subset h
            simp [hm] at this
          · intro h
            have := h e (.inl rfl)
            rw [hm] at this; cases this

end Verif.SkipList
