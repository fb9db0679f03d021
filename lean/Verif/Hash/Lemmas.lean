import Verif.Hash.Model
import Verif.Sort.Props
/- Helper lemmas for the hashtable model. -/
namespace Verif.Hash

variable {K V : Type _}

/-- "this entry is for the key `k`". -/
def isKey (c : Cfg K V) (k : K) (e : Entry K V) : Bool := decide (c.cmp e.1 k = 0)

/-- No two entries for equal keys. -/
def Distinct (c : Cfg K V) (l : List (Entry K V)) : Prop := l.Pairwise fun a b => c.cmp a.1 b.1 ≠ 0

/-- Assumptions on the callbacks. -/
structure Lawful (c : Cfg K V) : Prop where
  key : LawfulCmp c.cmp
  hash : ∀ a b, c.cmp a b = 0 → c.hash a = c.hash b
  val : c.multiSorted = true → LawfulCmp c.vcmp

structure Valid (c : Cfg K V) : Prop where
  fill : c.fillpct < 100
  ms : c.multiSorted = true → c.multi = true
  gl : c.getLast = true → c.multi = true
  ks : c.keysSorted = true → c.ordered = true

/-- The bucket structure holds exactly the entries of `l`. -/
structure Holds (c : Cfg K V) (h : HT K V) (l : List (Entry K V)) : Prop where
  pow : ∃ e, h.size = 2 ^ e ∧ e ≤ 24
  len : h.buckets.length = h.size
  place : ∀ i b, h.buckets[i]? = some b → ∀ e ∈ b, c.hash e.1 % 2 ^ 32 % h.size = i
  perm : h.buckets.flatten.Perm l
  dist : Distinct c l

theorem Distinct.perm {c : Cfg K V} (hc : Lawful c) {l l' : List (Entry K V)} (h : Distinct c l) (p : l.Perm l') :
    Distinct c l' :=
  p.pairwise h (fun h h' => h ((hc.key.eq_swap _ _).1 h'))

theorem hashIdx_eq {c : Cfg K V} {h : HT K V} (hp : ∃ e, h.size = 2 ^ e ∧ e ≤ 24) (k : K) :
    hashIdx c h k = c.hash k % 2 ^ 32 % h.size := by
  obtain ⟨e, he, hle⟩ := hp
  have h1 : 0 < 2 ^ e := Nat.two_pow_pos e
  have h2 : 2 ^ e ≤ 2 ^ 24 := Nat.pow_le_pow_right (by omega) hle
  have h3 : (h.size + (2 ^ 32 - 1)) % 2 ^ 32 = 2 ^ e - 1 := by rw [he]; omega
  unfold hashIdx
  rw [h3, Nat.and_two_pow_sub_one_eq_mod, he]

theorem hashIdx_lt {c : Cfg K V} {h : HT K V} (hp : ∃ e, h.size = 2 ^ e ∧ e ≤ 24) (k : K) : hashIdx c h k < h.size := by
  rw [hashIdx_eq hp]
  obtain ⟨e, he, _⟩ := hp
  exact Nat.mod_lt _ (by rw [he]; exact Nat.two_pow_pos e)

theorem Holds.bucket {c : Cfg K V} {h : HT K V} {l} (H : Holds c h l) (k : K) :
    ∃ b, h.buckets[hashIdx c h k]? = some b := by
  have := hashIdx_lt (c := c) H.pow k
  exact ⟨_, List.getElem?_eq_getElem (by rw [H.len]; exact this)⟩

/-- Entries for `k` are in the bucket of `k`. -/
theorem Holds.only {c : Cfg K V} (hc : Lawful c) {h : HT K V} {l} (H : Holds c h l) {k : K} {i : Nat} {b}
    (hb : h.buckets[i]? = some b) {e} (he : e ∈ b) (hk : isKey c k e = true) : i = hashIdx c h k := by
  have h1 := H.place i b hb e he
  have h2 : c.hash e.1 = c.hash k := hc.hash _ _ (by simpa [isKey] using hk)
  rw [hashIdx_eq H.pow, ← h2, h1]

theorem find?_iff {c : Cfg K V} (hc : Lawful c) {l : List (Entry K V)} (hd : Distinct c l) {k : K} {e : Entry K V} :
    l.find? (isKey c k) = some e ↔ e ∈ l ∧ isKey c k e = true := by
  constructor
  · intro h; exact ⟨List.mem_of_find?_eq_some h, List.find?_some h⟩
  · rintro ⟨hm, hk⟩
    induction l with
    | nil => simp at hm
    | cons x l ih =>
      rw [List.find?_cons]
      have hd' := List.pairwise_cons.1 hd
      rcases List.mem_cons.1 hm with rfl | hm
      · rw [hk]
      · have : isKey c k x = false := by
          have h1 := hd'.1 e hm
          simp only [isKey, decide_eq_false_iff_not, decide_eq_true_eq] at *
          exact fun h2 => h1 (hc.key.eq_trans h2 ((hc.key.eq_swap _ _).1 hk))
        rw [this]
        exact ih hd'.2 hm

theorem find?_perm {c : Cfg K V} (hc : Lawful c) {l l' : List (Entry K V)} (hd : Distinct c l) (p : l.Perm l') (k : K) :
    l.find? (isKey c k) = l'.find? (isKey c k) := by
  have hd' := hd.perm hc p
  cases h : l.find? (isKey c k) with
  | some e =>
    have := (find?_iff hc hd).1 h
    exact ((find?_iff hc hd').2 ⟨p.mem_iff.1 this.1, this.2⟩).symm
  | none =>
    symm
    rw [List.find?_eq_none] at h ⊢
    exact fun e he => h e (p.mem_iff.2 he)

theorem mem_bucket {l : List (List (Entry K V))} {i : Nat} {b} (h : l[i]? = some b) {e} (he : e ∈ b) : e ∈ l.flatten :=
  List.mem_flatten.2 ⟨b, List.mem_of_getElem? h, he⟩

theorem Holds.dist_bucket {c : Cfg K V} (hc : Lawful c) {h : HT K V} {l} (H : Holds c h l) {i : Nat} {b}
    (hb : h.buckets[i]? = some b) : Distinct c b := by
  have hd : Distinct c h.buckets.flatten := H.dist.perm hc H.perm.symm
  exact List.Pairwise.sublist (List.sublist_flatten_of_mem (List.mem_of_getElem? hb)) hd

theorem Holds.find {c : Cfg K V} (hc : Lawful c) {h : HT K V} {l} (H : Holds c h l) {k : K} {b}
    (hb : h.buckets[hashIdx c h k]? = some b) : b.find? (isKey c k) = l.find? (isKey c k) := by
  have hd : Distinct c h.buckets.flatten := H.dist.perm hc H.perm.symm
  rw [← find?_perm hc hd H.perm]
  have hdb := H.dist_bucket hc hb
  cases hf : h.buckets.flatten.find? (isKey c k) with
  | some e =>
    obtain ⟨h1, h2⟩ := (find?_iff hc hd).1 hf
    obtain ⟨b', h3, h4⟩ := List.mem_flatten.1 h1
    obtain ⟨i, h5⟩ := List.getElem?_of_mem h3
    have h6 := H.only hc h5 h4 h2
    subst h6
    rw [hb] at h5
    injection h5 with h5
    subst h5
    exact (find?_iff hc hdb).2 ⟨h4, h2⟩
  | none =>
    rw [List.find?_eq_none] at hf ⊢
    exact fun e he => hf e (mem_bucket hb he)

theorem getMatch_none {c : Cfg K V} {b : List (Entry K V)} {k : K} :
    getMatch c b k = none ↔ b.find? (isKey c k) = none := by
  unfold getMatch
  rw [List.findIdx?_eq_none_iff, List.find?_eq_none]
  simp [isKey]

theorem getMatch_some {c : Cfg K V} {b : List (Entry K V)} {k : K} {p : Nat} (h : getMatch c b k = some p) :
    ∃ e, b[p]? = some e ∧ b.find? (isKey c k) = some e := by
  unfold getMatch at h
  rw [List.findIdx?_eq_some_iff_getElem] at h
  obtain ⟨h1, h2, h3⟩ := h
  refine ⟨b[p], List.getElem?_eq_getElem h1, ?_⟩
  rw [List.find?_eq_some_iff_getElem]
  refine ⟨by simpa [isKey] using h2, p, h1, rfl, fun j hj => ?_⟩
  simpa [isKey] using h3 j hj

theorem entry?_eq {c : Cfg K V} (hc : Lawful c) {h : HT K V} {l} (H : Holds c h l) (k : K) :
    entry? c h k = some (l.find? (isKey c k)) := by
  obtain ⟨b, hb⟩ := H.bucket k
  unfold entry?
  rw [hb]
  dsimp only
  have hf := H.find hc hb
  cases hm : getMatch c b k with
  | none => rw [← hf, getMatch_none.1 hm]
  | some p =>
    obtain ⟨e, h1, h2⟩ := getMatch_some hm
    dsimp only
    rw [← hf, h1, h2]

/-! ### Updating one bucket -/

theorem Holds.dist_pos {c : Cfg K V} (hc : Lawful c) {b : List (Entry K V)} (hd : Distinct c b) {k : K} {p : Nat} {e}
    (hp : b[p]? = some e) (hk : isKey c k e = true) : ∀ j e', b[j]? = some e' → isKey c k e' = true → j = p := by
  intro j e' hj hk'
  obtain ⟨hpl, hpe⟩ := List.getElem?_eq_some_iff.1 hp
  obtain ⟨hjl, hje⟩ := List.getElem?_eq_some_iff.1 hj
  have heq : c.cmp e'.1 e.1 = 0 := by
    simp only [isKey, decide_eq_true_eq] at hk hk'
    exact hc.key.eq_trans hk' ((hc.key.eq_swap _ _).1 hk)
  rcases Nat.lt_trichotomy j p with hlt | heq' | hlt
  · have := (List.pairwise_iff_getElem.1 hd) j p hjl hpl hlt
    rw [hje, hpe] at this
    exact absurd heq this
  · exact heq'
  · have := (List.pairwise_iff_getElem.1 hd) p j hpl hjl hlt
    rw [hje, hpe] at this
    exact absurd ((hc.key.eq_swap _ _).1 heq) this

/-- Change of the values of the entry for `k`. -/
def upd (c : Cfg K V) (k : K) (f : List V → List V) (e : Entry K V) : Entry K V :=
  if isKey c k e then (e.1, f e.2) else e

theorem set_eq_map {c : Cfg K V} (hc : Lawful c) {b : List (Entry K V)} (hd : Distinct c b) {k : K} {p : Nat} {e}
    (hp : b[p]? = some e) (hk : isKey c k e = true) (f : List V → List V) :
    b.set p (e.1, f e.2) = b.map (upd c k f) := by
  have hu := Holds.dist_pos hc hd hp hk
  apply List.ext_getElem?
  intro j
  rw [List.getElem?_map, List.getElem?_set]
  obtain ⟨hpl, hpe⟩ := List.getElem?_eq_some_iff.1 hp
  by_cases hj : p = j
  · subst hj
    rw [if_pos rfl, if_pos hpl, hp]
    simp [upd, hk]
  · rw [if_neg hj]
    cases hbj : b[j]? with
    | none => rfl
    | some e' =>
      have : isKey c k e' = false := by
        cases hh : isKey c k e' with
        | false => rfl
        | true => exact absurd (hu j e' hbj hh).symm hj
      simp [upd, this]

theorem unlink_eq {b : List (Entry K V)} {p : Nat} (hp : p < b.length) : unlink b p = b.eraseIdx p := by
  unfold unlink
  rw [List.eraseIdx_eq_take_drop_succ]
  by_cases h : p + 1 < b.length
  · rw [List.getElem?_eq_getElem h]
    dsimp only
    rw [List.drop_eq_getElem_cons h]
  · have hdr : b.drop (p + 1) = [] := List.drop_of_length_le (by omega)
    rw [List.getElem?_eq_none (by omega), hdr]
    dsimp only
    by_cases h0 : p = 0
    · subst h0; simp
    · rw [if_neg h0, List.append_nil]

theorem eraseIdx_eq_filter {c : Cfg K V} (hc : Lawful c) {b : List (Entry K V)} (hd : Distinct c b) {k : K} {p : Nat}
    {e} (hp : b[p]? = some e) (hk : isKey c k e = true) :
    b.eraseIdx p = b.filter (fun e => !isKey c k e) := by
  have hu := Holds.dist_pos hc hd hp hk
  obtain ⟨hpl, hpe⟩ := List.getElem?_eq_some_iff.1 hp
  have hb : b = b.take p ++ b[p] :: b.drop (p + 1) := by
    rw [← List.drop_eq_getElem_cons hpl, List.take_append_drop]
  rw [List.eraseIdx_eq_take_drop_succ]
  conv => rhs; rw [hb]
  rw [List.filter_append, List.filter_cons, hpe, hk]
  simp only [Bool.not_true, Bool.false_eq_true, if_false]
  congr 1
  · symm
    rw [List.filter_eq_self]
    intro x hx
    obtain ⟨j, hj, rfl⟩ := List.getElem_of_mem hx
    rw [List.length_take] at hj
    rw [List.getElem_take]
    cases hh : isKey c k b[j] with
    | false => rfl
    | true => have := hu j _ (List.getElem?_eq_getElem (by omega)) hh; omega
  · symm
    rw [List.filter_eq_self]
    intro x hx
    obtain ⟨j, hj, rfl⟩ := List.getElem_of_mem hx
    rw [List.length_drop] at hj
    rw [List.getElem_drop]
    cases hh : isKey c k b[p + 1 + j] with
    | false => rfl
    | true => have := hu (p + 1 + j) _ (List.getElem?_eq_getElem (by omega)) hh; omega

theorem set_bucket_map {c : Cfg K V} (hc : Lawful c) {h : HT K V} {l} (H : Holds c h l) {k : K} {b}
    (hb : h.buckets[hashIdx c h k]? = some b) (g : List (Entry K V) → List (Entry K V))
    (hg : ∀ b', (∀ e ∈ b', isKey c k e = false) → g b' = b') :
    h.buckets.set (hashIdx c h k) (g b) = h.buckets.map g := by
  apply List.ext_getElem?
  intro j
  rw [List.getElem?_map, List.getElem?_set]
  by_cases hj : hashIdx c h k = j
  · subst hj
    rw [if_pos rfl, hb, if_pos (by rw [H.len]; exact hashIdx_lt H.pow k)]
    rfl
  · rw [if_neg hj]
    cases hbj : h.buckets[j]? with
    | none => rfl
    | some b' =>
      simp only [Option.map_some]
      rw [hg]
      intro e he
      cases hh : isKey c k e with
      | false => rfl
      | true => exact absurd (H.only hc hbj he hh).symm hj

theorem flatten_map_map (bs : List (List (Entry K V))) (f : Entry K V → Entry K V) :
    (bs.map (·.map f)).flatten = bs.flatten.map f := by
  rw [List.map_flatten]

theorem flatten_map_filter (bs : List (List (Entry K V))) (f : Entry K V → Bool) :
    (bs.map (·.filter f)).flatten = bs.flatten.filter f := by
  rw [List.filter_flatten]

theorem upd_key {c : Cfg K V} {k : K} {f} (e : Entry K V) : (upd c k f e).1 = e.1 := by
  unfold upd; split <;> rfl

/-- Storing changed values for the key `k` (any other fields of the table may change too). -/
theorem Holds.set {c : Cfg K V} (hc : Lawful c) {h h' : HT K V} {l} (H : Holds c h l) {k : K} {b}
    (hb : h.buckets[hashIdx c h k]? = some b) {p : Nat} {e} (hp : b[p]? = some e) (hk : isKey c k e = true)
    (f : List V → List V) (hs : h'.size = h.size)
    (hbs : h'.buckets = h.buckets.set (hashIdx c h k) (b.set p (e.1, f e.2))) :
    Holds c h' (l.map (upd c k f)) := by
  rw [set_eq_map hc (H.dist_bucket hc hb) hp hk f,
    set_bucket_map hc H hb (·.map (upd c k f)) (by
      intro b' hb'
      conv => rhs; rw [← List.map_id b']
      apply List.map_congr_left
      intro e he
      simp [upd, hb' e he])] at hbs
  refine ⟨by rw [hs]; exact H.pow, by rw [hbs, List.length_map, hs, H.len], ?_, ?_, ?_⟩
  · intro i b' hb' e' he'
    rw [hbs, List.getElem?_map] at hb'
    cases hbi : h.buckets[i]? with
    | none => rw [hbi] at hb'; simp at hb'
    | some b0 =>
      rw [hbi] at hb'
      simp only [Option.map_some, Option.some.injEq] at hb'
      subst hb'
      obtain ⟨e0, h0, rfl⟩ := List.mem_map.1 he'
      rw [upd_key, hs]
      exact H.place i b0 hbi e0 h0
  · rw [hbs, flatten_map_map]; exact H.perm.map _
  · unfold Distinct
    rw [List.pairwise_map]
    refine List.Pairwise.imp ?_ H.dist
    intro a b h; rw [upd_key, upd_key]; exact h

/-- Removing the entry of the key `k`. -/
theorem Holds.erase {c : Cfg K V} (hc : Lawful c) {h h' : HT K V} {l} (H : Holds c h l) {k : K} {b}
    (hb : h.buckets[hashIdx c h k]? = some b) {p : Nat} {e} (hp : b[p]? = some e) (hk : isKey c k e = true)
    (hs : h'.size = h.size) (hbs : h'.buckets = h.buckets.set (hashIdx c h k) (unlink b p)) :
    Holds c h' (l.filter (fun e => !isKey c k e)) := by
  obtain ⟨hpl, _⟩ := List.getElem?_eq_some_iff.1 hp
  rw [unlink_eq hpl, eraseIdx_eq_filter hc (H.dist_bucket hc hb) hp hk,
    set_bucket_map hc H hb (·.filter (fun e => !isKey c k e)) (by
      intro b' hb'
      rw [List.filter_eq_self]
      intro e he; simp [hb' e he])] at hbs
  refine ⟨by rw [hs]; exact H.pow, by rw [hbs, List.length_map, hs, H.len], ?_, ?_, List.Pairwise.filter _ H.dist⟩
  · intro i b' hb' e' he'
    rw [hbs, List.getElem?_map] at hb'
    cases hbi : h.buckets[i]? with
    | none => rw [hbi] at hb'; simp at hb'
    | some b0 =>
      rw [hbi] at hb'
      simp only [Option.map_some, Option.some.injEq] at hb'
      subst hb'
      rw [hs]
      exact H.place i b0 hbi e' (List.mem_filter.1 he').1
  · rw [hbs, flatten_map_filter]; exact H.perm.filter _

theorem link_perm (b : List (Entry K V)) (e : Entry K V) : (link b e).Perm (e :: b) := by
  cases b with
  | nil => exact List.Perm.refl _
  | cons x b => exact List.Perm.swap _ _ _

theorem set_flatten_perm (bs : List (List (Entry K V))) (i : Nat) {b b' : List (Entry K V)} {e}
    (h : bs[i]? = some b) (hp : b'.Perm (e :: b)) : (bs.set i b').flatten.Perm (e :: bs.flatten) := by
  obtain ⟨hi, rfl⟩ := List.getElem?_eq_some_iff.1 h
  have e1 : bs = bs.take i ++ bs[i] :: bs.drop (i + 1) := by
    rw [← List.drop_eq_getElem_cons hi, List.take_append_drop]
  rw [List.set_eq_take_append_cons_drop, if_pos hi]
  conv => rhs; rw [e1]
  rw [List.flatten_append, List.flatten_cons, List.flatten_append, List.flatten_cons]
  refine (List.Perm.append_left _ (List.Perm.append_right _ hp)).trans ?_
  rw [List.cons_append]
  exact List.perm_middle

/-- Linking a new entry for a key that is not present. -/
theorem Holds.link {c : Cfg K V} (hc : Lawful c) {h h' : HT K V} {l l'} (H : Holds c h l) {e : Entry K V} {b}
    (hb : h.buckets[hashIdx c h e.1]? = some b) (hno : l.find? (isKey c e.1) = none) (hs : h'.size = h.size)
    (hbs : h'.buckets = h.buckets.set (hashIdx c h e.1) (Hash.link b e)) (hl : l'.Perm (e :: l)) :
    Holds c h' l' := by
  have hperm := set_flatten_perm h.buckets _ hb (link_perm b e)
  have hd : Distinct c (e :: l) := by
    refine List.pairwise_cons.2 ⟨fun x hx => ?_, H.dist⟩
    have := List.find?_eq_none.1 hno x hx
    simp only [isKey, decide_eq_true_eq] at this
    exact fun h => this ((hc.key.eq_swap _ _).1 h)
  refine ⟨by rw [hs]; exact H.pow, by rw [hbs, List.length_set, hs, H.len], ?_, ?_, hd.perm hc hl.symm⟩
  · intro i b' hb' e' he'
    rw [hbs, List.getElem?_set] at hb'
    rw [hs]
    by_cases hi : hashIdx c h e.1 = i
    · rw [if_pos hi] at hb'
      split at hb'
      · injection hb' with hb'
        subst hb'
        rcases List.mem_cons.1 ((link_perm b e).mem_iff.1 he') with rfl | he'
        · rw [← hi, hashIdx_eq H.pow]
        · exact H.place i b (by rw [← hi]; exact hb) e' he'
      · cases hb'
    · rw [if_neg hi] at hb'
      exact H.place i b' hb' e' he'
  · rw [hbs]
    exact hperm.trans ((H.perm.cons e).trans hl.symm)

/-! ### Rehash -/

theorem Holds.of_eq {c : Cfg K V} {h h' : HT K V} {l} (H : Holds c h l) (hs : h'.size = h.size)
    (hb : h'.buckets = h.buckets) : Holds c h' l :=
  ⟨by rw [hs]; exact H.pow, by rw [hs, hb]; exact H.len, by rw [hs, hb]; exact H.place, by rw [hb]; exact H.perm, H.dist⟩

/-- The fields that rehashing must not touch. -/
def stays (h : HT K V) := (h.keys, h.numKeys, h.numValues)

theorem rehashLoop_spec {c : Cfg K V} (hc : Lawful c) (es : List (Entry K V)) : ∀ (h : HT K V) (l),
    Holds c h l → Distinct c (es ++ l) →
    ∃ h', rehashLoop c es h = some h' ∧ Holds c h' (es.reverse ++ l) ∧ stays h' = stays h := by
  induction es with
  | nil => intro h l H _; exact ⟨h, rfl, H, rfl⟩
  | cons e es ih =>
    intro h l H hd
    obtain ⟨b, hb⟩ := H.bucket e.1
    have hno : l.find? (isKey c e.1) = none := by
      rw [List.find?_eq_none]
      intro x hx
      have := (List.pairwise_cons.1 hd).1 x (by simp [hx])
      simp only [isKey, decide_eq_true_eq]
      exact fun h => this ((hc.key.eq_swap _ _).1 h)
    have hm : getMatch c b e.1 = none := getMatch_none.2 (by rw [H.find hc hb]; exact hno)
    have hi : insertRehash c h e = some { h with
        numCollisions := if b = [] then h.numCollisions else h.numCollisions + 1
        buckets := h.buckets.set (hashIdx c h e.1) (link b e) } := by
      unfold insertRehash
      dsimp only
      rw [hb]
      dsimp only
      rw [hm]
    unfold rehashLoop
    rw [hi]
    dsimp only
    obtain ⟨h', h1, h2, h3⟩ := ih { h with
        numCollisions := if b = [] then h.numCollisions else h.numCollisions + 1
        buckets := h.buckets.set (hashIdx c h e.1) (link b e) } (e :: l)
      (H.link hc hb hno rfl rfl (List.Perm.refl _))
      (hd.perm hc (by rw [List.cons_append]; exact List.perm_middle.symm))
    exact ⟨h', h1, by simpa using h2, h3⟩

theorem rehash_spec {c : Cfg K V} (hc : Lawful c) {h : HT K V} {l} (H : Holds c h l) :
    ∃ h', rehash c h = some h' ∧ Holds c h' l ∧ stays h' = stays h := by
  unfold rehash
  by_cases hs : h.size * 2 > maxBuckets
  · rw [if_pos hs]; exact ⟨h, rfl, H, rfl⟩
  · rw [if_neg hs]
    obtain ⟨e, he, hle⟩ := H.pow
    have hle' : e + 1 ≤ 24 := by
      unfold maxBuckets at hs
      have : 2 ^ (e + 1) ≤ 2 ^ 24 := by rw [Nat.pow_succ, ← he]; omega
      exact (Nat.pow_le_pow_iff_right (by omega)).1 this
    have H0 : Holds c { h with
        size := h.size * 2
        numExpansions := h.numExpansions + 1
        buckets := List.replicate (h.size * 2) [] } ([] : List (Entry K V)) := by
      refine ⟨⟨e + 1, by simp only [he, Nat.pow_succ], hle'⟩, by simp, ?_, by simp, List.Pairwise.nil⟩
      intro i b hb e he
      simp only [List.getElem?_replicate] at hb
      split at hb
      · injection hb with hb; subst hb; simp at he
      · cases hb
    obtain ⟨h', h1, h2, h3⟩ := rehashLoop_spec hc h.buckets.flatten _ [] H0
      (by rw [List.append_nil]; exact H.dist.perm hc H.perm.symm)
    refine ⟨h', h1, ?_, h3⟩
    rw [List.append_nil] at h2
    refine ⟨h2.pow, h2.len, h2.place, h2.perm.trans ((List.reverse_perm _).trans H.perm), H.dist⟩

end Verif.Hash
