import Verif.LList.Model
/- The pointer structure of a linked list and how the operations change it. -/
namespace Verif.LList

variable {α : Type _}

/-- What `next` of `x` should be in the list `A ++ x :: B`. -/
def nx (c : Bool) (A : List Nat) (x : Nat) (B : List Nat) : Option Nat :=
  if c then (B ++ A ++ [x]).head? else B.head?

/-- What `prev` of `x` should be in the list `A ++ x :: B`. -/
def pv (c : Bool) (A : List Nat) (x : Nat) (B : List Nat) : Option Nat :=
  if c then ([x] ++ B ++ A).getLast? else A.getLast?

def Linked (c : Bool) (next prev : Nat → Option Nat) (ids : List Nat) : Prop :=
  ∀ A x B, ids = A ++ x :: B → next x = nx c A x B ∧ prev x = pv c A x B

/-- Where an element of `A ++ n :: B` sits. -/
theorem split_cases {β : Type _} {A B A' B' : List β} {n x : β} (h : A ++ n :: B = A' ++ x :: B') :
    (∃ C, A = A' ++ x :: C ∧ B' = C ++ n :: B) ∨ (A = A' ∧ n = x ∧ B = B') ∨
      (∃ C, B = C ++ x :: B' ∧ A' = A ++ n :: C) := by
  rw [List.append_eq_append_iff] at h
  rcases h with ⟨t, h1, h2⟩ | ⟨t, h1, h2⟩
  · cases t with
    | nil => simp at h1 h2; exact Or.inr (Or.inl ⟨h1.symm, h2.1, h2.2⟩)
    | cons y t =>
      simp only [List.cons_append, List.cons.injEq] at h2
      obtain ⟨rfl, h2⟩ := h2
      exact Or.inr (Or.inr ⟨t, h2, h1⟩)
  · cases t with
    | nil => simp at h1 h2; exact Or.inr (Or.inl ⟨h1, h2.1.symm, h2.2.symm⟩)
    | cons y t =>
      simp only [List.cons_append, List.cons.injEq] at h2
      obtain ⟨rfl, h2⟩ := h2
      exact Or.inl ⟨t, h1, h2⟩

theorem getLast?_mid (C : List Nat) (x y : Nat) : (x :: C ++ [y]).getLast? = some y := by
  rw [List.getLast?_append]; rfl

theorem head?_eq (l : List Nat) : l = [] ∨ ∃ a t, l = a :: t := by cases l <;> simp
theorem last_eq (l : List Nat) : l = [] ∨ ∃ t a, l = t ++ [a] := by
  rcases List.eq_nil_or_concat l with h | ⟨t, a, h⟩
  · exact Or.inl h
  · exact Or.inr ⟨t, a, by simpa using h⟩

theorem Linked.insert {c : Bool} {next prev next' prev' : Nat → Option Nat} {A B : List Nat} {n : Nat}
    (hnd : (A ++ n :: B).Nodup) (hl : Linked c next prev (A ++ B))
    (hn : next' n = nx c A n B) (hp : prev' n = pv c A n B)
    (hnx : ∀ x ∈ A ++ B, next' x = if pv c A n B = some x then some n else next x)
    (hpv : ∀ x ∈ A ++ B, prev' x = if nx c A n B = some x then some n else prev x) :
    Linked c next' prev' (A ++ n :: B) := by
  intro A' x B' h
  rcases split_cases h with ⟨C, rfl, rfl⟩ | ⟨rfl, rfl, rfl⟩ | ⟨C, rfl, rfl⟩
  · obtain ⟨h1, h2⟩ := hl A' x (C ++ B) (by simp)
    rw [hnx x (by simp), hpv x (by simp), h1, h2]
    clear hl hnx hpv hn hp h1 h2 h
    rcases last_eq C with rfl | ⟨C0, y, rfl⟩ <;> rcases head?_eq B with rfl | ⟨b, B0, rfl⟩ <;>
      rcases head?_eq A' with rfl | ⟨a, A0, rfl⟩ <;> cases c <;> constructor <;>
      simp [List.nodup_append] at hnd <;>
      simp [nx, pv, List.getLast?_eq_head?_reverse, List.head?_append, -List.head?_reverse] <;> grind
  · exact ⟨hn, hp⟩
  · obtain ⟨h1, h2⟩ := hl (A ++ C) x B' (by simp)
    rw [hnx x (by simp), hpv x (by simp), h1, h2]
    clear hl hnx hpv hn hp h1 h2 h
    rcases head?_eq C with rfl | ⟨y, C0, rfl⟩ <;> rcases last_eq B' with rfl | ⟨B0, b, rfl⟩ <;>
      rcases last_eq A with rfl | ⟨A0, a, rfl⟩ <;> cases c <;> constructor <;>
      simp [List.nodup_append] at hnd <;>
      simp [nx, pv, List.getLast?_eq_head?_reverse, List.head?_append, -List.head?_reverse] <;> grind

theorem Linked.remove {c : Bool} {next prev next' prev' : Nat → Option Nat} {A B : List Nat} {n : Nat}
    (hnd : (A ++ n :: B).Nodup) (hl : Linked c next prev (A ++ n :: B))
    (hnx : ∀ x ∈ A ++ B, next' x = if pv c A n B = some x then nx c A n B else next x)
    (hpv : ∀ x ∈ A ++ B, prev' x = if nx c A n B = some x then pv c A n B else prev x) :
    Linked c next' prev' (A ++ B) := by
  intro A' x B' h
  have hx : x ∈ A ++ B := by rw [h]; simp
  rw [hnx x hx, hpv x hx]
  rw [List.append_eq_append_iff] at h
  rcases h with ⟨C, rfl, rfl⟩ | ⟨t, rfl, h2⟩
  · obtain ⟨h1, h2⟩ := hl (A ++ n :: C) x B' (by simp)
    rw [h1, h2]
    clear hl hnx hpv h1 h2 hx
    rcases head?_eq C with rfl | ⟨y, C0, rfl⟩ <;> rcases last_eq B' with rfl | ⟨B0, b, rfl⟩ <;>
      rcases last_eq A with rfl | ⟨A0, a, rfl⟩ <;> cases c <;> constructor <;>
      simp [List.nodup_append] at hnd <;>
      simp [nx, pv, List.getLast?_eq_head?_reverse, List.head?_append, -List.head?_reverse] <;> grind
  · cases t with
    | nil =>
      simp only [List.nil_append] at h2
      subst h2
      obtain ⟨h1, h2⟩ := hl (A' ++ [n]) x B' (by simp)
      simp only [List.append_nil] at *
      rw [h1, h2]
      clear hl hnx hpv h1 h2 hx
      rcases last_eq B' with rfl | ⟨B0, b, rfl⟩ <;>
        rcases last_eq A' with rfl | ⟨A0, a, rfl⟩ <;> cases c <;> constructor <;>
        simp [List.nodup_append] at hnd <;>
      simp [nx, pv, List.getLast?_eq_head?_reverse, List.head?_append, -List.head?_reverse] <;> grind
    | cons y C =>
      simp only [List.cons_append, List.cons.injEq] at h2
      obtain ⟨rfl, rfl⟩ := h2
      obtain ⟨h1, h2⟩ := hl A' x (C ++ n :: B) (by simp)
      rw [h1, h2]
      clear hl hnx hpv h1 h2 hx
      rcases last_eq C with rfl | ⟨C0, y, rfl⟩ <;> rcases head?_eq B with rfl | ⟨b, B0, rfl⟩ <;>
        rcases head?_eq A' with rfl | ⟨a, A0, rfl⟩ <;> cases c <;> constructor <;>
        simp [List.nodup_append] at hnd <;>
      simp [nx, pv, List.getLast?_eq_head?_reverse, List.head?_append, -List.head?_reverse] <;> grind

/-- Pointer structure of the list: `ids` are the nodes from first to last. -/
structure Str (l : L α) (ids : List Nat) : Prop where
  nodup : ids.Nodup
  linked : Linked l.circular l.next l.prev ids
  head : l.head = ids.head?
  tail : l.tail = ids.getLast?
  live : ∀ x ∈ ids, (l.val x).isSome

theorem nx_mem {c A x B q} (h : nx c A x B = some q) : q ∈ A ++ B ∨ (A = [] ∧ B = [] ∧ q = x ∧ c = true) := by
  unfold nx at h
  cases c <;> rcases head?_eq B with rfl | ⟨b, B0, rfl⟩ <;> rcases head?_eq A with rfl | ⟨a, A0, rfl⟩ <;> simp_all

theorem pv_mem {c A x B q} (h : pv c A x B = some q) : q ∈ A ++ B ∨ (A = [] ∧ B = [] ∧ q = x ∧ c = true) := by
  unfold pv at h
  cases c <;> rcases last_eq B with rfl | ⟨B0, b, rfl⟩ <;> rcases last_eq A with rfl | ⟨A0, a, rfl⟩ <;>
    simp_all [List.getLast?_eq_head?_reverse, -List.head?_reverse]

/-- Fields an operation on links leaves alone. -/
structure Same (l l' : L α) : Prop where
  circular : l'.circular = l.circular
  val : l'.val = l.val
  elements : l'.elements = l.elements
  fresh : l'.fresh = l.fresh

theorem unlink_spec {l : L α} {A B : List Nat} {n : Nat} (hs : Str l (A ++ n :: B))
    (hne : l.circular = true → A ++ B ≠ []) :
    ∃ l', unlink l n = some l' ∧ Str l' (A ++ B) ∧ Same l l' := by
  have hnd := hs.nodup
  obtain ⟨h1, h2⟩ := hs.linked A n B rfl
  have hln : (l.val n).isSome := hs.live n (by simp)
  have hnAB : n ∉ A ++ B := by
    intro h
    simp [List.nodup_append] at hnd h
    grind
  have hnxm : ∀ q, nx l.circular A n B = some q → q ∈ A ++ B := by
    intro q hq
    rcases nx_mem hq with h | ⟨rfl, rfl, _, h⟩
    · exact h
    · exact absurd rfl (hne h)
  have hpvm : ∀ q, pv l.circular A n B = some q → q ∈ A ++ B := by
    intro q hq
    rcases pv_mem hq with h | ⟨rfl, rfl, _, h⟩
    · exact h
    · exact absurd rfl (hne h)
  have hlive : ∀ q ∈ A ++ B, (l.val q).isSome := fun q hq => hs.live q (by simp at hq ⊢; grind)
  let next' := upd (match pv l.circular A n B with | none => l.next | some q => upd l.next q (nx l.circular A n B)) n none
  let prev' := upd (match nx l.circular A n B with | none => l.prev | some q => upd l.prev q (pv l.circular A n B)) n none
  have heq : unlink l n = some { l with
      next := next'
      prev := prev'
      head := if l.head = some n then nx l.circular A n B else l.head
      tail := if l.tail = some n then pv l.circular A n B else l.tail } := by
    unfold unlink
    simp only [next', prev']
    cases hx : nx l.circular A n B with
    | none =>
      rw [hx] at h1
      cases hp : pv l.circular A n B with
      | none =>
        rw [hp] at h2
        simp [getNext, getPrev, setNext, setPrev, hln, h1, h2]
        split <;> split <;> simp_all [upd]
      | some p =>
        rw [hp] at h2
        have hp1 := hlive p (hpvm p hp)
        have hp2 : n ≠ p := fun h => hnAB (h ▸ hpvm p hp)
        simp [getNext, getPrev, setNext, setPrev, hln, h1, h2, hp1, upd, hp2]
        split <;> split <;> simp_all [upd]
    | some q =>
      rw [hx] at h1
      have hq1 := hlive q (hnxm q hx)
      have hq2 : n ≠ q := fun h => hnAB (h ▸ hnxm q hx)
      cases hp : pv l.circular A n B with
      | none =>
        rw [hp] at h2
        simp [getNext, getPrev, setNext, setPrev, hln, h1, h2, hq1, upd, hq2]
        split <;> split <;> simp_all [upd]
      | some p =>
        rw [hp] at h2
        have hp1 := hlive p (hpvm p hp)
        have hp2 : n ≠ p := fun h => hnAB (h ▸ hpvm p hp)
        simp [getNext, getPrev, setNext, setPrev, hln, h1, h2, hp1, upd, hp2, hq1, hq2]
        split <;> split <;> simp_all [upd]
  refine ⟨_, heq, ⟨?_, ?_, ?_, ?_, hlive⟩, ⟨rfl, rfl, rfl, rfl⟩⟩
  · simp [List.nodup_append] at hnd ⊢; grind
  · refine Linked.remove hnd hs.linked ?_ ?_
    · intro x hx
      have hxn : x ≠ n := fun h => hnAB (h ▸ hx)
      simp only [next', upd, if_neg hxn]
      cases pv l.circular A n B with
      | none => simp
      | some p => simp [upd, eq_comm]
    · intro x hx
      have hxn : x ≠ n := fun h => hnAB (h ▸ hx)
      simp only [prev', upd, if_neg hxn]
      cases nx l.circular A n B with
      | none => simp
      | some p => simp [upd, eq_comm]
  · simp only [hs.head]
    clear heq
    rcases head?_eq A with rfl | ⟨a, A0, rfl⟩
    · simp only [List.nil_append, List.head?_cons, if_true, nx]
      split
      · rename_i hc
        have := hne hc
        rcases head?_eq B with rfl | ⟨b, B0, rfl⟩ <;> simp_all
      · rfl
    · have : a ≠ n := fun h => hnAB (by simp [h])
      simp [this]
  · simp only [hs.tail]
    clear heq
    rcases last_eq B with rfl | ⟨B0, b, rfl⟩
    · simp only [List.append_nil, List.getLast?_concat, if_true, pv]
      split
      · rename_i hc
        have := hne hc
        rcases last_eq A with rfl | ⟨A0, a, rfl⟩
        · simp_all
        · simp [List.getLast?_eq_head?_reverse, -List.head?_reverse]
      · rfl
    · have : b ≠ n := fun h => hnAB (by simp [h])
      simp [this, List.getLast?_eq_head?_reverse, -List.head?_reverse]

theorem insertUnsorted_none {l : L α} {ids : List Nat} {n : Nat} (hs : Str l ids) (hn : n ∉ ids)
    (hln : (l.val n).isSome) (hpn : l.prev n = none) :
    ∃ l', insertUnsorted l n none = some l' ∧ Str l' (n :: ids) ∧ l'.circular = l.circular ∧ l'.val = l.val ∧
      l'.elements = l.elements + 1 ∧ l'.fresh = l.fresh := by
  have hnd : (([] : List Nat) ++ n :: ids).Nodup := by simp [hn, hs.nodup]
  have hlk : Linked l.circular l.next l.prev ([] ++ ids) := hs.linked
  rcases head?_eq ids with rfl | ⟨a, t, rfl⟩
  · have hh : l.head = none := hs.head
    have ht : l.tail = none := hs.tail
    cases hc : l.circular with
    | false =>
      refine ⟨{ l with
        next := upd l.next n none
        head := some n
        tail := some n
        elements := l.elements + 1 }, by simp [insertUnsorted, setNext, hln, hh, ht, hc],
        ⟨by simp, ?_, rfl, rfl, by simpa using hln⟩, hc, rfl, rfl, rfl⟩
      intro A x B h
      rcases A with _ | ⟨y, A⟩ <;> simp at h
      obtain ⟨rfl, rfl⟩ := h
      simp [upd, nx, pv, hc, hpn]
    | true =>
      refine ⟨{ l with
        next := upd (upd (upd l.next n none) n (some n)) n (some n)
        prev := upd l.prev n (some n)
        head := some n
        tail := some n
        elements := l.elements + 1 }, by simp [insertUnsorted, setNext, setPrev, hln, hh, ht, hc],
        ⟨by simp, ?_, rfl, rfl, by simpa using hln⟩, hc, rfl, rfl, rfl⟩
      intro A x B h
      rcases A with _ | ⟨y, A⟩ <;> simp at h
      obtain ⟨rfl, rfl⟩ := h
      simp [upd, nx, pv, hc]
  · have hh : l.head = some a := hs.head
    have hna : n ≠ a := by intro h; simp [h] at hn
    have hla : (l.val a).isSome := hs.live a (by simp)
    obtain ⟨tl, htl⟩ : ∃ tl, (a :: t).getLast? = some tl := ⟨_, List.getLast?_eq_some_getLast (by simp)⟩
    have htm : tl ∈ a :: t := List.mem_of_getLast? htl
    have ht : l.tail = some tl := by rw [hs.tail, htl]
    have hltl := hs.live tl htm
    have hntl : n ≠ tl := fun h => hn (h ▸ htm)
    cases hc : l.circular with
    | false =>
      refine ⟨{ l with
        next := upd l.next n (some a)
        prev := upd l.prev a (some n)
        head := some n
        elements := l.elements + 1 }, by simp [insertUnsorted, setNext, setPrev, hln, hh, ht, hc, hla],
        ⟨by simpa using hnd, ?_, rfl, ?_, ?_⟩, hc, rfl, rfl, rfl⟩
      · refine Linked.insert (A := []) (B := a :: t) hnd hlk ?_ ?_ ?_ ?_
        · simp [upd, nx, hc]
        · simp [upd, pv, hc, hna, hpn]
        · intro x hx
          have : x ≠ n := fun h => hn (by simpa [h] using hx)
          simp [upd, pv, hc, this]
        · intro x hx
          simp [upd, nx, hc, eq_comm]
      · rw [← List.singleton_append, List.getLast?_append, ← hs.tail, ht]; rfl
      · intro x hx
        rcases List.mem_cons.1 hx with rfl | hx
        · exact hln
        · exact hs.live x hx
    | true =>
      refine ⟨{ l with
        next := upd (upd l.next n (some a)) tl (some n)
        prev := upd (upd l.prev a (some n)) n (some tl)
        head := some n
        elements := l.elements + 1 }, by simp [insertUnsorted, setNext, setPrev, hln, hh, ht, hc, hla, hltl],
        ⟨by simpa using hnd, ?_, rfl, ?_, ?_⟩, hc, rfl, rfl, rfl⟩
      · have hpvn : pv l.circular [] n (a :: t) = some tl := by
          simp only [pv, hc, if_true, List.append_nil]
          rw [List.getLast?_append, htl]; rfl
        refine Linked.insert (A := []) (B := a :: t) hnd hlk ?_ ?_ ?_ ?_
        · simp [upd, nx, hc, hntl]
        · rw [hpvn]; simp [upd]
        · intro x hx
          have : x ≠ n := fun h => hn (by simpa [h] using hx)
          rw [hpvn]
          simp [upd, this, eq_comm]
        · intro x hx
          have : x ≠ n := fun h => hn (by simpa [h] using hx)
          simp [upd, nx, hc, this, eq_comm]
      · rw [← List.singleton_append, List.getLast?_append, ← hs.tail, ht]; rfl
      · intro x hx
        rcases List.mem_cons.1 hx with rfl | hx
        · exact hln
        · exact hs.live x hx

theorem insertUnsorted_some {l : L α} {A B : List Nat} {a n : Nat} (hs : Str l (A ++ a :: B)) (hn : n ∉ A ++ a :: B)
    (hln : (l.val n).isSome) :
    ∃ l', insertUnsorted l n (some a) = some l' ∧ Str l' (A ++ a :: n :: B) ∧ l'.circular = l.circular ∧ l'.val = l.val ∧
      l'.elements = l.elements + 1 ∧ l'.fresh = l.fresh := by
  have hnd : ((A ++ [a]) ++ n :: B).Nodup := by
    have := hs.nodup
    simp [List.nodup_append] at this hn ⊢
    grind
  have hlk : Linked l.circular l.next l.prev ((A ++ [a]) ++ B) := by simpa using hs.linked
  obtain ⟨h1, h2⟩ := hs.linked A a B rfl
  have hna : n ≠ a := by intro h; simp [h] at hn
  have hla : (l.val a).isSome := hs.live a (by simp)
  have hpvn : pv l.circular (A ++ [a]) n B = some a := by
    unfold pv; split <;> simp [List.getLast?_eq_head?_reverse, -List.head?_reverse]
  have hnxn : nx l.circular (A ++ [a]) n B = nx l.circular A a B := by
    unfold nx
    split
    · rcases head?_eq B with rfl | ⟨b, B0, rfl⟩ <;> rcases head?_eq A with rfl | ⟨x, A0, rfl⟩ <;> simp
    · rfl
  have key : ∀ l' : L α, l'.circular = l.circular → l'.val = l.val → l'.head = l.head →
      l'.tail = (A ++ a :: n :: B).getLast? →
      l'.next = upd (upd l.next n (nx l.circular A a B)) a (some n) →
      l'.prev = (match nx l.circular A a B with
        | none => upd l.prev n (some a)
        | some q => upd (upd l.prev n (some a)) q (some n)) → Str l' (A ++ a :: n :: B) := by
    intro l' e1 e2 e3 e4 e5 e6
    refine ⟨by simpa using hnd, ?_, ?_, e4, ?_⟩
    · rw [e1, show A ++ a :: n :: B = (A ++ [a]) ++ n :: B by simp]
      refine Linked.insert hnd hlk ?_ ?_ ?_ ?_
      · rw [e5, hnxn]; simp [upd, hna]
      · rw [e6, hpvn]
        cases hq : nx l.circular A a B with
        | none => simp [upd]
        | some q =>
          have : n ≠ q := by
            intro h
            rcases nx_mem hq with h3 | ⟨_, _, h3, _⟩
            · exact hn (by simp at h3 ⊢; grind)
            · exact hna (h.trans h3)
          simp [upd, this]
      · intro x hx
        have : x ≠ n := by rintro rfl; exact hn (by simpa using hx)
        rw [e5, hpvn]; simp [upd, this, eq_comm]
      · intro x hx
        have : x ≠ n := by rintro rfl; exact hn (by simpa using hx)
        rw [e6, hnxn]
        cases nx l.circular A a B with
        | none => simp [upd, this]
        | some q => simp [upd, this, eq_comm]
    · rw [e3, hs.head]; rcases head?_eq A with rfl | ⟨x, A0, rfl⟩ <;> simp
    · rw [e2]
      intro x hx
      by_cases hxn : x = n
      · rw [hxn]; exact hln
      · exact hs.live x (by simp at hx ⊢; grind)
  cases hq : nx l.circular A a B with
  | none =>
    have hB : B = [] := by
      unfold nx at hq
      cases B with
      | nil => rfl
      | cons b B => split at hq <;> simp at hq
    refine ⟨{ l with
      next := upd (upd l.next n none) a (some n)
      prev := upd l.prev n (some a)
      tail := some n
      elements := l.elements + 1 },
      by simp [insertUnsorted, setNext, setPrev, getNext, hln, hla, h1, hq, upd, hna], ?_, rfl, rfl, rfl, rfl⟩
    refine key _ rfl rfl rfl ?_ ?_ ?_
    · simp [hB, List.getLast?_eq_head?_reverse, -List.head?_reverse]
    · rw [hq]
    · rw [hq]
  | some q =>
    have hlq : (l.val q).isSome := by
      rcases nx_mem hq with h3 | ⟨_, _, h3, _⟩
      · exact hs.live q (by simp at h3 ⊢; grind)
      · rw [h3]; exact hla
    have hqt : (l.circular = true ∧ some q = l.head) ↔ B = [] := by
      rw [hs.head]
      have hnd' := hs.nodup
      unfold nx at hq
      rcases head?_eq B with rfl | ⟨b, B0, rfl⟩ <;> rcases head?_eq A with rfl | ⟨x, A0, rfl⟩ <;>
        cases hc : l.circular <;> simp_all [List.nodup_append] <;> grind
    refine ⟨{ l with
      next := upd (upd l.next n (some q)) a (some n)
      prev := upd (upd l.prev n (some a)) q (some n)
      tail := if l.circular = true ∧ some q = l.head then some n else l.tail
      elements := l.elements + 1 }, ?_, ?_, rfl, rfl, rfl, rfl⟩
    · rw [hq] at h1
      by_cases hb : l.circular = true ∧ some q = l.head
      · simp [insertUnsorted, setNext, setPrev, getNext, hln, hla, h1, upd, hna, hb.1, hb.2.symm, hlq]
      · simp [insertUnsorted, setNext, setPrev, getNext, hln, hla, h1, upd, hna, hb, hlq]
    refine key _ rfl rfl rfl ?_ ?_ ?_
    · dsimp only
      split
      · rename_i hb
        rw [hqt.1 hb]
        simp [List.getLast?_eq_head?_reverse, -List.head?_reverse]
      · rename_i hb
        rw [hs.tail]
        rcases last_eq B with rfl | ⟨B0, b, rfl⟩
        · exact absurd (hqt.2 rfl) hb
        · simp [List.getLast?_eq_head?_reverse, -List.head?_reverse]
    · rw [hq]
    · rw [hq]

theorem Str.next_eq {l : L α} {A B : List Nat} {n : Nat} (hs : Str l (A ++ n :: B)) :
    getNext l n = some (nx l.circular A n B) := by
  rw [getNext, if_pos (hs.live n (by simp)), (hs.linked A n B rfl).1]

theorem Str.prev_eq {l : L α} {A B : List Nat} {n : Nat} (hs : Str l (A ++ n :: B)) :
    getPrev l n = some (pv l.circular A n B) := by
  rw [getPrev, if_pos (hs.live n (by simp)), (hs.linked A n B rfl).2]

theorem moveBefore_spec {l : L α} {A B C D : List Nat} {m b : Nat} (hs : Str l (A ++ m :: B))
    (hb : A ++ B = C ++ b :: D) :
    ∃ l', moveBefore l m b = some (true, l') ∧
      Str l' (if nx l.circular A m B = some b then A ++ m :: B else C ++ m :: b :: D) ∧ Same l l' := by
  have hnd := hs.nodup
  have hnAB : m ∉ A ++ B := by
    intro h
    simp [List.nodup_append] at hnd h
    grind
  have hbm : b ≠ m := by rintro rfl; exact hnAB (by rw [hb]; simp)
  unfold moveBefore
  rw [if_neg hbm, hs.next_eq]
  simp only [bind, Option.bind_some]
  by_cases hx : nx l.circular A m B = some b
  · rw [if_pos hx, if_pos hx]
    exact ⟨l, rfl, hs, ⟨rfl, rfl, rfl, rfl⟩⟩
  · rw [if_neg hx, if_neg hx]
    obtain ⟨l1, h1, h2, h3⟩ := unlink_spec hs (fun _ => by rw [hb]; simp)
    rw [h1, Option.bind_some]
    rw [hb] at h2
    have hlm : (l1.val m).isSome := by rw [h3.val]; exact hs.live m (by simp)
    have hlb : (l1.val b).isSome := h2.live b (by simp)
    have hmn : m ∉ C ++ b :: D := by rw [← hb]; exact hnAB
    have hnd2 : (C ++ m :: (b :: D)).Nodup := by
      have := h2.nodup
      simp [List.nodup_append] at this hmn ⊢
      grind
    obtain ⟨k1, k2⟩ := h2.linked C b D rfl
    have hpvm : pv l1.circular C m (b :: D) = pv l1.circular C b D := by
      unfold pv
      split
      · rcases last_eq D with rfl | ⟨D0, d, rfl⟩ <;> rcases last_eq C with rfl | ⟨C0, c, rfl⟩ <;>
          simp [List.getLast?_eq_head?_reverse, -List.head?_reverse]
      · rfl
    have hnxm : nx l1.circular C m (b :: D) = some b := by unfold nx; split <;> rfl
    refine ⟨{ l1 with
      next := (match pv l1.circular C b D with
        | none => upd l1.next m (some b)
        | some q => upd (upd l1.next m (some b)) q (some m))
      prev := upd (upd l1.prev b (some m)) m (pv l1.circular C b D)
      head := if l1.head = some b then some m else l1.head }, ?_, ⟨hnd2, ?_, ?_, ?_, ?_⟩,
      ⟨h3.circular, h3.val, h3.elements, h3.fresh⟩⟩
    · have hgp : l1.prev b = pv l1.circular C b D := k2
      cases hp : pv l1.circular C b D with
      | none =>
        rw [hp] at hgp
        by_cases hh : l1.head = some b <;> simp [getPrev, setPrev, setNext, hlm, hlb, hgp, hh]
      | some q =>
        rw [hp] at hgp
        have hlq : (l1.val q).isSome := by
          rcases pv_mem hp with h | ⟨_, _, h, _⟩
          · exact h2.live q (by simp at h ⊢; grind)
          · rw [h]; exact hlb
        by_cases hh : l1.head = some b <;> simp [getPrev, setPrev, setNext, hlm, hlb, hgp, hh, hlq]
    · refine Linked.insert hnd2 h2.linked ?_ ?_ ?_ ?_
      · rw [hnxm]
        cases hp : pv l1.circular C b D with
        | none => simp [upd]
        | some q =>
          have : m ≠ q := by
            rintro rfl
            rcases pv_mem hp with h | ⟨_, _, h, _⟩
            · exact hmn (by simp at h ⊢; grind)
            · exact hbm h.symm
          simp [upd, this]
      · rw [hpvm]; simp [upd]
      · intro x hxm
        have : x ≠ m := by rintro rfl; exact hmn hxm
        rw [hpvm]
        cases pv l1.circular C b D with
        | none => simp [upd, this]
        | some q => simp [upd, this, eq_comm]
      · intro x hxm
        have : x ≠ m := by rintro rfl; exact hmn hxm
        rw [hnxm]; simp [upd, this, eq_comm]
    · dsimp only
      rw [h2.head]
      have hnd3 := h2.nodup
      rcases head?_eq C with rfl | ⟨c, C0, rfl⟩
      · simp
      · have : c ≠ b := by rintro rfl; simp at hnd3
        simp [this]
    · dsimp only
      rw [h2.tail]
      simp [List.getLast?_eq_head?_reverse, -List.head?_reverse, List.head?_append]
    · intro x hxm
      by_cases hxm' : x = m
      · rw [hxm']; exact hlm
      · exact h2.live x (by simp at hxm ⊢; grind)

theorem moveAfter_spec {l : L α} {A B C D : List Nat} {m b : Nat} (hs : Str l (A ++ m :: B))
    (hb : A ++ B = C ++ b :: D) :
    ∃ l', moveAfter l m b = some (true, l') ∧
      Str l' (if pv l.circular A m B = some b then A ++ m :: B else C ++ b :: m :: D) ∧ Same l l' := by
  have hnd := hs.nodup
  have hnAB : m ∉ A ++ B := by
    intro h
    simp [List.nodup_append] at hnd h
    grind
  have hbm : b ≠ m := by rintro rfl; exact hnAB (by rw [hb]; simp)
  unfold moveAfter
  rw [if_neg hbm, hs.prev_eq]
  simp only [bind, Option.bind_some]
  by_cases hx : pv l.circular A m B = some b
  · rw [if_pos hx, if_pos hx]
    exact ⟨l, rfl, hs, ⟨rfl, rfl, rfl, rfl⟩⟩
  · rw [if_neg hx, if_neg hx]
    obtain ⟨l1, h1, h2, h3⟩ := unlink_spec hs (fun _ => by rw [hb]; simp)
    rw [h1, Option.bind_some]
    rw [hb] at h2
    have hlm : (l1.val m).isSome := by rw [h3.val]; exact hs.live m (by simp)
    have hlb : (l1.val b).isSome := h2.live b (by simp)
    have hmn : m ∉ C ++ b :: D := by rw [← hb]; exact hnAB
    have hnd2 : ((C ++ [b]) ++ m :: D).Nodup := by
      have := h2.nodup
      simp [List.nodup_append] at this hmn ⊢
      grind
    obtain ⟨k1, k2⟩ := h2.linked C b D rfl
    have hnxm : nx l1.circular (C ++ [b]) m D = nx l1.circular C b D := by
      unfold nx
      split
      · rcases head?_eq D with rfl | ⟨d, D0, rfl⟩ <;> rcases head?_eq C with rfl | ⟨c, C0, rfl⟩ <;> simp
      · rfl
    have hpvm : pv l1.circular (C ++ [b]) m D = some b := by
      unfold pv; split <;> simp [List.getLast?_eq_head?_reverse, -List.head?_reverse]
    refine ⟨{ l1 with
      prev := (match nx l1.circular C b D with
        | none => upd l1.prev m (some b)
        | some q => upd (upd l1.prev m (some b)) q (some m))
      next := upd (upd l1.next b (some m)) m (nx l1.circular C b D)
      tail := if l1.tail = some b then some m else l1.tail }, ?_, ⟨by simpa using hnd2, ?_, ?_, ?_, ?_⟩,
      ⟨h3.circular, h3.val, h3.elements, h3.fresh⟩⟩
    · have hgp : l1.next b = nx l1.circular C b D := k1
      cases hp : nx l1.circular C b D with
      | none =>
        rw [hp] at hgp
        by_cases hh : l1.tail = some b <;> simp [getNext, setPrev, setNext, hlm, hlb, hgp, hh]
      | some q =>
        rw [hp] at hgp
        have hlq : (l1.val q).isSome := by
          rcases nx_mem hp with h | ⟨_, _, h, _⟩
          · exact h2.live q (by simp at h ⊢; grind)
          · rw [h]; exact hlb
        by_cases hh : l1.tail = some b <;> simp [getNext, setPrev, setNext, hlm, hlb, hgp, hh, hlq]
    · rw [show C ++ b :: m :: D = (C ++ [b]) ++ m :: D by simp]
      refine Linked.insert hnd2 (by simpa using h2.linked) ?_ ?_ ?_ ?_
      · rw [hnxm]; simp [upd]
      · rw [hpvm]
        cases hp : nx l1.circular C b D with
        | none => simp [upd]
        | some q =>
          have : m ≠ q := by
            rintro rfl
            rcases nx_mem hp with h | ⟨_, _, h, _⟩
            · exact hmn (by simp at h ⊢; grind)
            · exact hbm h.symm
          simp [upd, this]
      · intro x hxm
        have : x ≠ m := by rintro rfl; exact hmn (by simpa using hxm)
        rw [hpvm]; simp [upd, this, eq_comm]
      · intro x hxm
        have : x ≠ m := by rintro rfl; exact hmn (by simpa using hxm)
        rw [hnxm]
        cases nx l1.circular C b D with
        | none => simp [upd, this]
        | some q => simp [upd, this, eq_comm]
    · dsimp only
      rw [h2.head]
      simp [List.head?_append]
    · dsimp only
      rw [h2.tail]
      have hnd3 := h2.nodup
      rcases last_eq D with rfl | ⟨D0, d, rfl⟩
      · simp [List.getLast?_eq_head?_reverse, -List.head?_reverse]
      · have : d ≠ b := by rintro rfl; simp [List.nodup_append] at hnd3
        simp [List.getLast?_eq_head?_reverse, -List.head?_reverse, this]
    · intro x hxm
      by_cases hxm' : x = m
      · rw [hxm']; exact hlm
      · exact h2.live x (by simp at hxm ⊢; grind)

end Verif.LList
