import Verif.SkipList.Lemmas
/- Insertion, for C88. -/
namespace Verif.SkipList

variable {α : Type _}

theorem lay_append (i : Nat) (A B : List (E α)) : lay i (A ++ B) = lay i A ++ lay i B := by simp [lay]
theorem lay_lay {i j : Nat} (h : i ≤ j) (A : List (E α)) : lay j (lay i A) = lay j A := by
  simp only [lay, List.filter_filter]
  congr 1; funext e; simp; omega
theorem mem_lay {i : Nat} {A : List (E α)} {e : E α} : e ∈ lay i A ↔ e ∈ A ∧ i < e.2.2 := by simp [lay]
theorem lay_zero {A : List (E α)} (h : ∀ e ∈ A, 1 ≤ e.2.2) : lay 0 A = A := List.filter_eq_self.2 fun e he => by have := h e he; simp; omega
theorem lay_sub (i : Nat) (A : List (E α)) : (lay i A).Sublist A := List.filter_sublist
theorem lay_len (i : Nat) (A : List (E α)) : (lay i A).length ≤ A.length := (lay_sub i A).length_le
theorem lay_nodup {i : Nat} {A : List (E α)} (h : (ids A).Nodup) : (ids (lay i A)).Nodup := h.sublist ((lay_sub i A).map _)

/-- One level of the list. -/
def Level (s : S α) (i : Nat) (es : List (E α)) : Prop := s.head i = hd es none ∧ Linked (fun p => s.next p i) (fun p => s.prev p i) none es none

/-- The values are in order. -/
def Sorted (cmp : α → α → Int) (l : List (E α)) : Prop := l.Pairwise fun a b => cmp a.2.1 b.2.1 ≤ 0

structure Rep (s : S α) (l : List (E α)) : Prop where
  nodup : (ids l).Nodup
  cells : ∀ e ∈ l, s.cell e.1 = some e.2
  dead : ∀ p, p ∉ ids l → s.cell p = none
  lev : ∀ e ∈ l, 1 ≤ e.2.2 ∧ e.2.2 ≤ s.levels
  pos : 1 ≤ s.levels
  level : ∀ i, i < s.levels → Level s i (lay i l)
  tail : s.tail = lst none l
  len : s.elements = l.length
  fresh : ∀ p ∈ ids l, p < s.fresh

/-- What the loops need to know about a level. -/
structure Lay (s : S α) (i : Nat) (es : List (E α)) : Prop where
  cells : ∀ e ∈ es, s.cell e.1 = some e.2
  lev : ∀ e ∈ es, i < e.2.2
  level : Level s i es
  lt : i < s.levels

theorem Rep.lay {s : S α} {l} (h : Rep s l) {i : Nat} (hi : i < s.levels) : Lay s i (lay i l) :=
  ⟨fun e he => h.cells e (mem_lay.1 he).1, fun _ he => (mem_lay.1 he).2, h.level i hi, hi⟩

theorem Lay.valid {s : S α} {i es} (h : Lay s i es) {e : E α} (he : e ∈ es) : valid s e.1 i = true := by
  simp [SkipList.valid, h.cells e he, h.lev e he]

theorem Lay.next {s : S α} {i es} (h : Lay s i es) {A B} {e : E α} (he : es = A ++ e :: B) : getNext s e.1 i = some (hd B none) := by
  subst he
  rw [getNext, h.valid (by simp), if_pos rfl]
  exact congrArg some ((linked_append A _ none none).1 h.level.2).2.1

theorem Lay.prev {s : S α} {i es} (h : Lay s i es) {A B} {e : E α} (he : es = A ++ e :: B) : getPrev s e.1 i = some (lst none A) := by
  subst he
  rw [getPrev, h.valid (by simp), if_pos rfl]
  exact congrArg some ((linked_append A _ none none).1 h.level.2).2.2.1

theorem Lay.val {s : S α} {i es} (h : Lay s i es) {e : E α} (he : e ∈ es) : getVal s e.1 = some e.2.1 := by
  simp [getVal, h.cells e he]

theorem Lay.head {s : S α} {i es} (h : Lay s i es) : getHead s i = some (hd es none) := by
  rw [getHead, if_pos h.lt, h.level.1]

/-! ### The search for the place -/

theorem scan_ok {cmp : α → α → Int} {s : S α} {i es} (h : Lay s i es) (v : α) : ∀ (B : List (E α)) (A : List (E α)) (e : E α) (fuel : Nat),
    es = A ++ e :: B → B.length < fuel →
    ∃ C D, B = C ++ D ∧ (∀ c ∈ C, cmp v c.2.1 > 0) ∧ (∀ d D', D = d :: D' → cmp v d.2.1 ≤ 0) ∧ (scan cmp s v i fuel e.1).map some = some (lst none (e :: C)) := by
  intro B
  induction B with
  | nil =>
    intro A e fuel he hf
    obtain ⟨fuel, rfl⟩ : ∃ k, fuel = k + 1 := ⟨fuel - 1, by simp at hf; omega⟩
    refine ⟨[], [], rfl, by simp, by simp, ?_⟩
    simp [scan, h.next he]
  | cons b B ih =>
    intro A e fuel he hf
    obtain ⟨fuel, rfl⟩ : ∃ k, fuel = k + 1 := ⟨fuel - 1, by simp at hf; omega⟩
    simp only [List.length_cons, Nat.add_lt_add_iff_right] at hf
    have hb : b ∈ es := by rw [he]; simp
    rw [scan, h.next he]
    simp only [Option.bind_some, hd_cons, h.val hb]
    by_cases hc : cmp v b.2.1 > 0
    · obtain ⟨C, D, h1, h2, h3, h4⟩ := ih (A ++ [e]) b fuel (by rw [he]; simp) hf
      refine ⟨b :: C, D, by rw [h1]; rfl, ?_, h3, ?_⟩
      · intro c hc'
        rcases List.mem_cons.1 hc' with rfl | hc'
        · exact hc
        · exact h2 c hc'
      · rw [if_pos hc, h4]; rfl
    · refine ⟨[], b :: B, rfl, by simp, ?_, ?_⟩
      · rintro d D' ⟨⟩; omega
      · rw [if_neg hc]; rfl

theorem sorted_suffix {cmp : α → α → Int} (hc : LawfulCmp cmp) {v : α} {D : List (E α)} (hs : Sorted cmp D)
    (h : ∀ d D', D = d :: D' → cmp v d.2.1 ≤ 0) : ∀ d ∈ D, cmp v d.2.1 ≤ 0 := by
  cases D with
  | nil => simp
  | cons d D' =>
    intro x hx
    have h1 := h d D' rfl
    rcases List.mem_cons.1 hx with rfl | hx
    · exact h1
    · exact hc.trans _ _ _ h1 ((List.pairwise_cons.1 hs).1 x hx)

theorem sorted_suffix_lt {cmp : α → α → Int} (hc : LawfulCmp cmp) {v : α} {d : E α} {D : List (E α)} (hs : Sorted cmp (d :: D))
    (h : cmp v d.2.1 < 0) : ∀ x ∈ d :: D, cmp v x.2.1 < 0 := by
  intro x hx
  rcases List.mem_cons.1 hx with rfl | hx
  · exact h
  · exact hc.lt_of_lt_of_le h ((List.pairwise_cons.1 hs).1 x hx)

theorem Sorted.lay {cmp : α → α → Int} {l : List (E α)} (h : Sorted cmp l) (i : Nat) : Sorted cmp (lay i l) := List.Pairwise.sublist (lay_sub i l) h

/-- What is known about the split of a level. -/
structure Cut (cmp : α → α → Int) (v : α) (A B : List (E α)) : Prop where
  le : ∀ a ∈ A, cmp a.2.1 v ≤ 0
  ge : ∀ b ∈ B, cmp v b.2.1 ≤ 0
  gt : A = [] → ∀ b ∈ B, cmp v b.2.1 < 0

theorem filter_eq_nil_of {p : E α → Bool} {C : List (E α)} (h : ∀ c ∈ C, p c = false) : C.filter p = [] := by
  simpa using h

theorem split_unique {A A2 B B2 : List (E α)} {e f : E α} (he : e.1 = f.1) (h : A ++ e :: B = A2 ++ f :: B2) (hn : (ids (A ++ e :: B)).Nodup) :
    A = A2 ∧ e = f ∧ B = B2 := by
  induction A generalizing A2 with
  | nil =>
    cases A2 with
    | nil => simp at h; exact ⟨rfl, h⟩
    | cons a A2 =>
      exfalso
      simp only [List.nil_append, List.cons_append, List.cons.injEq] at h
      obtain ⟨rfl, rfl⟩ := h
      simp [ids, he] at hn
  | cons a A ih =>
    cases A2 with
    | nil =>
      exfalso
      simp only [List.nil_append, List.cons_append, List.cons.injEq] at h
      obtain ⟨rfl, rfl⟩ := h
      simp [ids, ← he] at hn
    | cons b A2 =>
      simp only [List.cons_append, List.cons.injEq] at h
      obtain ⟨rfl, h⟩ := h
      have := ih h (by simp only [ids, List.cons_append, List.map_cons, List.nodup_cons] at hn; exact hn.2)
      exact ⟨by rw [this.1], this.2⟩

/-- From the split of a level to that of the next one. -/
theorem place_ok {cmp : α → α → Int} (hc : LawfulCmp cmp) {s : S α} {l} {i : Nat} (hl : Lay s i (lay i l)) (hs : Sorted cmp l) (hn : (ids l).Nodup)
    (hlen : l.length = s.elements) {v : α} {A' B' : List (E α)} (hsp : SkipList.lay (i + 1) l = A' ++ B') (hcut : Cut cmp v A' B') :
    ∃ A B, SkipList.lay i l = A ++ B ∧ SkipList.lay (i + 1) A = A' ∧ SkipList.lay (i + 1) B = B' ∧ Cut cmp v A B ∧ place cmp s v i (lst none A') = some (lst none A) := by
  have hss := hs.lay i
  have hll : SkipList.lay (i + 1) (SkipList.lay i l) = A' ++ B' := by rw [lay_lay (by omega), hsp]
  -- a start at an entry
  have start : ∀ P e Q, SkipList.lay i l = P ++ e :: Q → cmp e.2.1 v ≤ 0 → SkipList.lay (i + 1) (P ++ [e]) = A' →
      ∃ A B, SkipList.lay i l = A ++ B ∧ SkipList.lay (i + 1) A = A' ∧ SkipList.lay (i + 1) B = B' ∧ Cut cmp v A B ∧
        (scan cmp s v i (s.elements + 1) e.1).map some = some (lst none A) := by
    intro P e Q hpq hev hA
    obtain ⟨C, D, rfl, h2, h3, h4⟩ := scan_ok (cmp := cmp) hl v Q P e (s.elements + 1) hpq (by
      have h := lay_len i l
      rw [hpq] at h; simp at h; omega)
    have hB : SkipList.lay (i + 1) (C ++ D) = B' := by
      have : SkipList.lay i l = (P ++ [e]) ++ (C ++ D) := by rw [hpq]; simp
      rw [this, lay_append, hA] at hll
      exact List.append_cancel_left hll
    have hC : SkipList.lay (i + 1) C = [] := by
      refine filter_eq_nil_of fun c hcC => ?_
      cases hlt : decide (i + 1 < c.2.2) with
      | false => rfl
      | true =>
        have : c ∈ B' := by rw [← hB, mem_lay]; exact ⟨by simp [hcC], by simpa using hlt⟩
        have := hcut.ge c this
        have := h2 c hcC
        omega
    have hsq : Sorted cmp (P ++ e :: (C ++ D)) := hpq ▸ hss
    obtain ⟨_, hsq2, hsq3⟩ := List.pairwise_append.1 hsq
    have hDs : Sorted cmp D := (List.pairwise_append.1 (List.pairwise_cons.1 hsq2).2).2.1
    refine ⟨P ++ [e] ++ C, D, by rw [hpq]; simp, by rw [lay_append, hA, hC, List.append_nil], ?_, ⟨?_, sorted_suffix hc hDs h3, ?_⟩, ?_⟩
    · rw [← hB, lay_append, hC, List.nil_append]
    · intro a ha
      simp only [List.append_assoc, List.mem_append, List.mem_singleton] at ha
      rcases ha with ha | rfl | ha
      · exact hc.trans _ _ _ (hsq3 a ha e (by simp)) hev
      · exact hev
      · exact (hc.swap _ _).2 (by have := h2 a ha; omega)
    · simp
    · rw [h4, List.append_assoc, lst_append]; rfl
  rcases List.eq_nil_or_concat A' with rfl | ⟨A0, e, rfl⟩
  · simp only [lst_nil, place, begin, hl.head]
    cases hL : SkipList.lay i l with
    | nil =>
      refine ⟨[], [], rfl, rfl, ?_, ⟨by simp, by simp, by simp⟩, by simp⟩
      rw [hL] at hll
      simpa [SkipList.lay] using hll.symm
    | cons e Q =>
      have hem : e ∈ SkipList.lay i l := by rw [hL]; simp
      simp only [hd_cons, Option.bind_some, hl.val hem, Option.map_some]
      by_cases hgt : cmp e.2.1 v > 0
      · rw [if_pos hgt]
        have hlt := sorted_suffix_lt hc (by rw [← hL]; exact hss) ((hc.lt_swap _ _).2 hgt)
        refine ⟨[], e :: Q, rfl, rfl, ?_, ⟨by simp, fun b hb => Int.le_of_lt (hlt b hb), fun _ => hlt⟩, rfl⟩
        rw [← hL]; simpa using hll
      · rw [if_neg hgt]
        obtain ⟨A, B, h1, h2, h3, h4, h5⟩ := start [] e Q hL (by omega) (by
          simp only [List.nil_append]
          refine filter_eq_nil_of fun c hcC => ?_
          obtain rfl := List.mem_singleton.1 hcC
          cases hlt : decide (i + 1 < c.2.2) with
          | false => rfl
          | true =>
            have : c ∈ B' := by
              have : c ∈ SkipList.lay (i + 1) (SkipList.lay i l) := mem_lay.2 ⟨hem, by simpa using hlt⟩
              rw [hll] at this; simpa using this
            have := (hc.lt_swap _ _).1 (hcut.gt rfl c this)
            omega)
        exact ⟨A, B, by rw [← hL]; exact h1, h2, h3, h4, h5⟩
  · rw [List.concat_eq_append] at *
    simp only [lst_concat, place, begin, Option.bind_some]
    have hel : e ∈ SkipList.lay (i + 1) (SkipList.lay i l) := by rw [hll]; simp
    obtain ⟨P, Q, hPQ⟩ := List.append_of_mem (mem_lay.1 hel).1
    have hPQ' : SkipList.lay (i + 1) P ++ e :: SkipList.lay (i + 1) Q = A0 ++ e :: B' := by
      rw [hPQ, lay_append] at hll
      have : SkipList.lay (i + 1) (e :: Q) = e :: SkipList.lay (i + 1) Q := by
        rw [SkipList.lay, List.filter_cons_of_pos (by simpa using (mem_lay.1 hel).2)]; rfl
      rw [this] at hll
      simpa using hll
    obtain ⟨h1, -, -⟩ := split_unique rfl hPQ' (by
      have : SkipList.lay (i + 1) P ++ e :: SkipList.lay (i + 1) Q = SkipList.lay (i + 1) l := by rw [hPQ', hsp]; simp
      rw [this]
      exact lay_nodup hn)
    exact start P e Q hPQ (hcut.le e (by simp)) (by
      rw [lay_append, h1, show SkipList.lay (i + 1) [e] = [e] from by rw [SkipList.lay, List.filter_cons_of_pos (by simpa using (mem_lay.1 hel).2)]; rfl])

/-! ### Linking -/

/-- Nothing but the links of level `i` and the tail are different. -/
structure Same (s s' : S α) (i : Nat) : Prop where
  cell : s'.cell = s.cell
  levels : s'.levels = s.levels
  elements : s'.elements = s.elements
  fresh : s'.fresh = s.fresh
  next : ∀ p j, j ≠ i → s'.next p j = s.next p j
  prev : ∀ p j, j ≠ i → s'.prev p j = s.prev p j
  head : ∀ j, j ≠ i → s'.head j = s.head j

theorem level_congr {s s' : S α} {j : Nat} {es : List (E α)} (h : Level s j es) (h1 : s'.head j = s.head j)
    (h2 : ∀ x ∈ ids es, s'.next x j = s.next x j ∧ s'.prev x j = s.prev x j) : Level s' j es :=
  ⟨by rw [h1]; exact h.1, linked_congr es h.2 h2⟩

theorem Same.level {s s' : S α} {i j : Nat} (h : Same s s' i) (hj : j ≠ i) {es : List (E α)} (hl : Level s j es) : Level s' j es :=
  level_congr hl (h.head j hj) fun x _ => ⟨h.next x j hj, h.prev x j hj⟩

/-- The state after linking. -/
def linked (s : S α) (i : Nat) (A B : List (E α)) (x : Nat) : S α :=
  { s with
    next := fun q j => if j = i then (if q = x then hd B none else if some q = lst none A then some x else s.next q j) else s.next q j
    prev := fun q j => if j = i then (if q = x then lst none A else if some q = hd B none then some x else s.prev q j) else s.prev q j
    head := fun j => if j = i ∧ A = [] then some x else s.head j
    tail := if i = 0 ∧ B = [] then some x else s.tail }

local macro "upds" : tactic => `(tactic| (and_intros <;> (try rfl) <;> funext q <;> (try funext j) <;> simp only [upd2, upd] <;> grind))

theorem link_eq {s : S α} {i : Nat} {A B : List (E α)} (hl : Lay s i (A ++ B)) (hn : (ids (A ++ B)).Nodup) {e : E α} (he : s.cell e.1 = some e.2)
    (hi : i < e.2.2) (hf : e.1 ∉ ids (A ++ B)) : link s e.1 i (lst none A) = some (linked s i A B e.1) := by
  have upd2_self : ∀ (f : Nat → Nat → Option Nat) p i v, upd2 f p i v p i = v := by simp [upd2]
  have upd2_ne : ∀ (f : Nat → Nat → Option Nat) p q i v, p ≠ q → upd2 f p i v q i = f q i := fun f p q i v h => by simp [upd2, h.symm]
  have hve : valid s e.1 i = true := by simp [valid, he, hi]
  have hneB : ∀ b B', B = b :: B' → ¬ b.1 = e.1 := by
    rintro b B' rfl h; exact hf (by simp [ids, h])
  have hvB : ∀ b B', B = b :: B' → ∃ c, s.cell b.1 = some c ∧ i < c.2 := by
    rintro b B' rfl; exact ⟨_, hl.cells b (by simp), hl.lev b (by simp)⟩
  rcases List.eq_nil_or_concat A with rfl | ⟨A0, a, rfl⟩
  · have hhead := hl.head
    simp only [List.nil_append] at *
    cases B with
    | nil =>
      by_cases h0 : i = 0
      · subst h0
        simp [link, hhead, setNext, hve, setPrev, valid, he, hi, setHead, hl.lt, getNext, upd2_self, linked]
        clear hneB hvB hl hn hf
        upds
      · simp [link, hhead, setNext, hve, setPrev, valid, he, hi, setHead, hl.lt, getNext, upd2_self, h0, linked]
        clear hneB hvB hl hn hf
        upds
    | cons b B' =>
      obtain ⟨c, hc1, hc2⟩ := hvB b B' rfl
      have := hneB b B' rfl
      simp [link, hhead, setNext, hve, setPrev, valid, he, hi, setHead, hl.lt, getNext, upd2_self, linked, hc1, hc2]
      clear hneB hvB hl hn hf
      upds
  · rw [List.concat_eq_append] at *
    have hnx : s.next a.1 i = hd B none := by
      have := hl.next (A := A0) (B := B) (e := a) (by simp)
      rw [getNext, hl.valid (by simp), if_pos rfl] at this
      exact Option.some.inj this
    have hca := hl.cells a (by simp)
    have hla := hl.lev a (by simp)
    have hea : ¬ a.1 = e.1 := fun h => hf (by simp [ids, h])
    have hea' : ¬ e.1 = a.1 := fun h => hea h.symm
    cases B with
    | nil =>
      by_cases h0 : i = 0
      · subst h0
        simp [link, hnx, setNext, hve, setPrev, valid, he, hi, getNext, upd2_self, linked, hca, hla, hea, hea', upd2_ne]
        clear hneB hvB hl hn hf
        upds
      · simp [link, hnx, setNext, hve, setPrev, valid, he, hi, getNext, upd2_self, h0, linked, hca, hla, hea, hea', upd2_ne]
        clear hneB hvB hl hn hf
        upds
    | cons b B' =>
      obtain ⟨c, hc1, hc2⟩ := hvB b B' rfl
      have hab : ¬ a.1 = b.1 := by
        intro h
        rw [ids_append] at hn
        exact (List.nodup_append.1 hn).2.2 a.1 (by simp [ids]) b.1 (by simp [ids]) h
      have := hneB b B' rfl
      simp [link, hnx, setNext, hve, setPrev, valid, he, hi, getNext, upd2_self, linked, hca, hla, hc1, hc2, hea, hea', upd2_ne]
      clear hneB hvB hl hn hf
      upds

theorem linked_same (s : S α) (i : Nat) (A B : List (E α)) (x : Nat) : Same s (linked s i A B x) i :=
  ⟨rfl, rfl, rfl, rfl, fun p j h => by simp [linked, h], fun p j h => by simp [linked, h], fun j h => by simp [linked, h]⟩

theorem linked_level {s : S α} {i : Nat} {A B : List (E α)} (hl : Lay s i (A ++ B)) (hn : (ids (A ++ B)).Nodup) {e : E α} 
    (hf : e.1 ∉ ids (A ++ B)) : Level (linked s i A B e.1) i (A ++ e :: B) := by
  refine ⟨?_, linked_insert A B e hl.level.2 hn hf (by simp [linked]) (by simp [linked]) ?_ ?_⟩
  · have := hl.level.1
    cases A with
    | nil => simp [linked]
    | cons a A' => simpa [linked] using this
  · intro x hx; simp [linked, hx]
  · intro x hx; simp [linked, hx]

/-! ### The loop -/

theorem insertLoop_ok {cmp : α → α → Int} (hc : LawfulCmp cmp) {l : List (E α)} (hs : Sorted cmp l) (hn : (ids l).Nodup) {e : E α} (hf : e.1 ∉ ids l)
    (hpos : ∀ e ∈ l, 1 ≤ e.2.2) (hlv : 1 ≤ e.2.2) : ∀ (i : Nat) (s : S α) (A' B' : List (E α)), s.elements = l.length → (∀ e ∈ l, s.cell e.1 = some e.2) →
    s.cell e.1 = some e.2 → i ≤ s.levels → (∀ j, j < i → Level s j (lay j l)) → lay i l = A' ++ B' → Cut cmp e.2.1 A' B' →
    ∃ A B s', l = A ++ B ∧ lay i A = A' ∧ lay i B = B' ∧ Cut cmp e.2.1 A B ∧ insertLoop cmp e.1 e.2.1 e.2.2 i (lst none A') s = some s' ∧
      s'.cell = s.cell ∧ s'.levels = s.levels ∧ s'.elements = s.elements ∧ s'.fresh = s.fresh ∧
      (∀ j, i ≤ j → s'.head j = s.head j ∧ ∀ p, s'.next p j = s.next p j ∧ s'.prev p j = s.prev p j) ∧
      (∀ j, j < i → Level s' j (lay j (A ++ e :: B))) ∧ (0 < i → s'.tail = if B = [] then some e.1 else s.tail) := by
  intro i
  induction i with
  | zero =>
    intro s A' B' _ _ _ _ _ hsp hcut
    rw [lay_zero hpos] at hsp
    refine ⟨A', B', s, hsp, lay_zero fun x hx => hpos x (by rw [hsp]; simp [hx]), lay_zero fun x hx => hpos x (by rw [hsp]; simp [hx]), hcut, rfl, rfl, rfl, rfl, rfl, ?_, ?_, ?_⟩
    · intros; simp
    · intros; omega
    · intros; omega
  | succ i ih =>
    intro s A' B' hlen hcells hce hi hlevels hsp hcut
    have hlay : Lay s i (lay i l) := ⟨fun x hx => hcells x (mem_lay.1 hx).1, fun x hx => (mem_lay.1 hx).2, hlevels i (by omega), by omega⟩
    obtain ⟨A1, B1, h1, h2, h3, h4, h5⟩ := place_ok hc hlay hs hn hlen.symm hsp hcut
    rw [insertLoop, h5, Option.bind_some]
    by_cases hge : i ≥ e.2.2
    · rw [if_pos hge]
      obtain ⟨A, B, s', g1, g2, g3, g4, g5, g6, g7, g8, g9, g10, g11, g12⟩ := ih s A1 B1 hlen hcells hce (by omega) (fun j hj => hlevels j (by omega)) h1 h4
      refine ⟨A, B, s', g1, by rw [← h2, ← g2, lay_lay (by omega)], by rw [← h3, ← g3, lay_lay (by omega)], g4, g5, g6, g7, g8, g9, fun j hj => g10 j (by omega), ?_, fun _ => g12 (by omega)⟩
      intro j hj
      by_cases hji : j < i
      · exact g11 j hji
      · obtain rfl : j = i := by omega
        have hx := g10 j (by omega)
        have : lay j (A ++ e :: B) = lay j l := by
          rw [g1, lay_append, lay_append]
          congr 1
          exact List.filter_cons_of_neg (by simp; omega)
        rw [this]
        exact level_congr (hlevels j (by omega)) hx.1 fun x _ => hx.2 x
    · rw [if_neg hge]
      rw [h1] at hlay
      have hn1 : (ids (A1 ++ B1)).Nodup := by rw [← h1]; exact lay_nodup hn
      have hf1 : e.1 ∉ ids (A1 ++ B1) := fun h => hf ((((lay_sub i l).map _).subset) (by rw [h1]; exact h))
      rw [link_eq hlay hn1 hce (by omega) hf1, Option.bind_some]
      have hsame := linked_same s i A1 B1 e.1
      obtain ⟨A, B, s', g1, g2, g3, g4, g5, g6, g7, g8, g9, g10, g11, g12⟩ := ih (linked s i A1 B1 e.1) A1 B1 hlen hcells hce (by show i ≤ s.levels; omega) (fun j hj => hsame.level (by omega) (hlevels j (by omega))) h1 h4
      refine ⟨A, B, s', g1, by rw [← h2, ← g2, lay_lay (by omega)], by rw [← h3, ← g3, lay_lay (by omega)], g4, g5, g6, g7, g8, g9, ?_, ?_, ?_⟩
      · intro j hj
        obtain ⟨x1, x2⟩ := g10 j (by omega)
        refine ⟨by rw [x1, hsame.head j (by omega)], fun p => ⟨by rw [(x2 p).1, hsame.next p j (by omega)], by rw [(x2 p).2, hsame.prev p j (by omega)]⟩⟩
      · intro j hj
        by_cases hji : j < i
        · exact g11 j hji
        · obtain rfl : j = i := by omega
          have hx := g10 j (by omega)
          have : lay j (A ++ e :: B) = A1 ++ e :: B1 := by
            rw [lay_append, g2]
            congr 1
            rw [← g3]
            exact List.filter_cons_of_pos (by simp; omega)
          rw [this]
          exact level_congr (linked_level hlay hn1 hf1) hx.1 fun x _ => hx.2 x
      · intro _
        by_cases hi0 : i = 0
        · subst hi0
          simp only [insertLoop, Option.some.injEq] at g5
          subst g5
          rw [lay_zero fun x hx => hpos x (by rw [g1]; simp [hx])] at g3
          subst g3
          simp [linked]
        · rw [g12 (by omega)]
          simp [linked, hi0]

theorem lay_top {l : List (E α)} {n : Nat} (h : ∀ e ∈ l, e.2.2 ≤ n) : lay n l = [] := filter_eq_nil_of fun c hc => by have := h c hc; simp; omega

theorem insert_ok {cmp : α → α → Int} (hc : LawfulCmp cmp) {s : S α} {l : List (E α)} (hr : Rep s l) (hs : Sorted cmp l) (v : α) (k : Nat) :
    ∃ A B lv s', l = A ++ B ∧ (∀ a ∈ A, cmp a.2.1 v ≤ 0) ∧ (∀ b ∈ B, cmp v b.2.1 ≤ 0) ∧ s.fresh ∉ ids l ∧ insert cmp s v k = some (s.fresh, s') ∧
      Rep s' (A ++ (s.fresh, v, lv) :: B) := by
  have hf : s.fresh ∉ ids l := fun h => Nat.lt_irrefl _ (hr.fresh _ h)
  let e : E α := (s.fresh, v, calcLevel s k)
  have hlv : 1 ≤ e.2.2 := by simp [e, calcLevel]
  have hne : ∀ x ∈ ids l, x ≠ s.fresh := fun x hx h => hf (h ▸ hx)
  have hold : ∀ j, j < s.levels → Level (prepare s v (calcLevel s k)) j (lay j l) := by
    intro j hj
    refine level_congr (hr.level j hj) (by simp [prepare, hj]) fun x hx => ?_
    have := hne x ((((lay_sub j l).map _).subset) hx)
    simp [prepare, this]
  have hnew : ∀ j, s.levels ≤ j → lay j l = [] := fun j hj => lay_top fun e he => Nat.le_trans (hr.lev e he).2 hj
  have hlevels : ∀ j, Level (prepare s v (calcLevel s k)) j (lay j l) := by
    intro j
    by_cases hj : j < s.levels
    · exact hold j hj
    · rw [hnew j (by omega)]
      exact ⟨by simp [prepare, hj], trivial⟩
  obtain ⟨A, B, s', h1, h2, h3, h4, h5, h6, h7, h8, h9, h10, h11, h12⟩ := insertLoop_ok hc hs hr.nodup (e := e) hf (fun e he => (hr.lev e he).1) hlv
    (prepare s v (calcLevel s k)).levels (prepare s v (calcLevel s k)) [] [] hr.len
    (fun x hx => by
      have := hne x.1 (List.mem_map_of_mem hx)
      simp [prepare, upd, this, hr.cells x hx])
    (by simp [prepare, upd, e]) (Nat.le_refl _) (fun j _ => hlevels j)
    (by rw [hnew _ (by simp [prepare]; omega)]; rfl) ⟨by simp, by simp, by simp⟩
  refine ⟨A, B, calcLevel s k, { s' with elements := s'.elements + 1 }, h1, h4.le, h4.ge, hf, ?_, ?_⟩
  · have : ((prepare s v (calcLevel s k)).cell s.fresh).map (·.2) = some (calcLevel s k) := by simp [prepare, upd]
    simp only [insert, this, Option.getD_some]
    rw [show insertLoop cmp s.fresh v (calcLevel s k) (prepare s v (calcLevel s k)).levels none (prepare s v (calcLevel s k)) = some s' from h5]
    rfl
  · have hids : ids (A ++ (s.fresh, v, calcLevel s k) :: B) = ids A ++ s.fresh :: ids B := by simp [ids]
    have hidl : ids l = ids A ++ ids B := by rw [h1, ids_append]
    have hmax : (prepare s v (calcLevel s k)).levels = max s.levels (calcLevel s k) := rfl
    have hcell : s'.cell = upd s.cell s.fresh (some (v, calcLevel s k)) := h6
    refine ⟨?_, ?_, ?_, ?_, ?_, ?_, ?_, ?_, ?_⟩
    · rw [hids]
      have := hr.nodup
      rw [hidl] at this hf
      grind
    · intro x hx
      show s'.cell x.1 = _
      rw [hcell]
      simp only [List.mem_append, List.mem_cons] at hx
      rcases hx with hx | rfl | hx
      · have : x ∈ l := by rw [h1]; simp [hx]
        have hn := hne x.1 (List.mem_map_of_mem this)
        simp [upd, hn, hr.cells x this]
      · simp [upd]
      · have : x ∈ l := by rw [h1]; simp [hx]
        have hn := hne x.1 (List.mem_map_of_mem this)
        simp [upd, hn, hr.cells x this]
    · intro p hp
      show s'.cell p = _
      rw [hcell]
      rw [hids] at hp
      simp only [List.mem_append, List.mem_cons, not_or] at hp
      simp only [upd, hp.2.1, ↓reduceIte]
      exact hr.dead p (by rw [hidl]; simp [hp.1, hp.2.2])
    · intro x hx
      show 1 ≤ x.2.2 ∧ x.2.2 ≤ s'.levels
      rw [h7, hmax]
      simp only [List.mem_append, List.mem_cons] at hx
      rcases hx with hx | rfl | hx
      · have := hr.lev x (by rw [h1]; simp [hx]); omega
      · exact ⟨hlv, Nat.le_max_right _ _⟩
      · have := hr.lev x (by rw [h1]; simp [hx]); omega
    · show 1 ≤ s'.levels
      rw [h7, hmax]
      have := hr.pos; omega
    · intro j hj
      exact h11 j (by rw [← h7]; exact hj)
    · show s'.tail = _
      have hp := hr.pos
      rw [h12 (by rw [hmax]; omega), lst_append, lst_cons]
      cases B with
      | nil => simp [e]
      | cons b B' =>
        rw [if_neg (by simp)]
        show s.tail = _
        rw [hr.tail, h1, lst_append, lst_cons, lst_cons]
    · show s'.elements + 1 = _
      rw [h8]
      show s.elements + 1 = _
      rw [hr.len, h1]; simp; omega
    · intro p hp
      show p < s'.fresh
      rw [h9]
      show p < s.fresh + 1
      rw [hids] at hp
      simp only [List.mem_append, List.mem_cons] at hp
      rcases hp with hp | rfl | hp
      · have := hr.fresh p (by rw [hidl]; simp [hp]); omega
      · omega
      · have := hr.fresh p (by rw [hidl]; simp [hp]); omega

end Verif.SkipList
