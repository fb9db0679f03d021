import Verif.Hash.Lemmas
/- Properties C09, C10, C11 (hashtables) and C54 (merge, duplicate). -/
namespace Verif.Hash

variable {K V : Type _}

/-! ### Specification

The table is a list of keys with their values.  For tables without ordered keys the order of the list means
nothing. -/

inductive Op (K V : Type _) where
  | insert (k : K) (v : V)
  | remove (k : K)
  | get (k : K)
  | multiLen (k : K)
  | multiGet (k : K) (i : Nat)
  | multiRemove (k : K) (i : Nat)
  | numKeys
  | enumerate

inductive Res (K V : Type _) where
  | bool (b : Bool)
  | val (v : Option V)
  | len (n : Option Nat)
  | num (n : Nat)
  | listing (count : Nat) (l : List (K × Option V))
deriving DecidableEq

def lookup (c : Cfg K V) (s : List (Entry K V)) (k : K) : Option (List V) :=
  (s.find? fun e => decide (c.cmp e.1 k = 0)).map (·.2)

/-- The values of a key that had `old` after inserting `v`. -/
def Stored (c : Cfg K V) (old : List V) (v : V) (new : List V) : Prop :=
  if c.multi then
    if c.multiSorted then new.Perm (v :: old) ∧ new.Pairwise (fun a b => c.vcmp a b ≤ 0) else new = old ++ [v]
  else new = [v]

def allPairs (s : List (Entry K V)) : List (K × Option V) := s.flatMap fun e => e.2.map fun v => (e.1, some v)

/-- What a call returns and how it changes the table.  `exact`: the number announced by an enumeration is exact. -/
def Spec (c : Cfg K V) (exact : Bool) (s : List (Entry K V)) : Op K V → Res K V → List (Entry K V) → Prop
  | .insert k v, r, s' => r = .bool true ∧
    match lookup c s k with
    | some old => ∃ new, Stored c old v new ∧ s' = s.map fun e => if c.cmp e.1 k = 0 then (e.1, new) else e
    | none =>
      if c.keysSorted then ∃ a b, s = a ++ b ∧ s' = a ++ (k, [v]) :: b ∧ s'.Pairwise fun x y => c.cmp x.1 y.1 ≤ 0
      else s' = s ++ [(k, [v])]
  | .remove k, r, s' => r = .bool (lookup c s k).isSome ∧ s' = s.filter fun e => decide (c.cmp e.1 k ≠ 0)
  | .get k, r, s' => s' = s ∧
    r = .val ((lookup c s k).bind fun vs => if c.multi && c.getLast then vs.getLast? else vs.head?)
  | .multiLen k, r, s' => s' = s ∧ r = .len (if c.multi then (lookup c s k).map List.length else none)
  | .multiGet k i, r, s' => s' = s ∧ r = .val (if c.multi then (lookup c s k).bind (·[i]?) else none)
  | .multiRemove k i, r, s' =>
    if c.multi ∧ ∃ vs, lookup c s k = some vs ∧ i < vs.length then
      r = .bool true ∧
        s' = (s.map fun e => if c.cmp e.1 k = 0 then (e.1, e.2.eraseIdx i) else e).filter fun e => !e.2.isEmpty
    else r = .bool false ∧ s' = s
  | .numKeys, r, s' => s' = s ∧ r = .num s.length
  | .enumerate, r, s' => s' = s ∧
    ∃ n l, r = .listing n l ∧ l.Perm (allPairs s) ∧ (c.ordered = true → l = allPairs s) ∧
      (exact = true → n = l.length)

inductive SpecRun (c : Cfg K V) (exact : Bool) : List (Entry K V) → List (Op K V) → List (Res K V) →
    List (Entry K V) → Prop
  | nil (s) : SpecRun c exact s [] [] s
  | cons {s s' s'' op ops r rs} : Spec c exact s op r s' → SpecRun c exact s' ops rs s'' →
      SpecRun c exact s (op :: ops) (r :: rs) s''

/-! ### Execution of the model -/

/-- Number of `enumerate_next` calls granted to an enumeration: one more than there are values.  If that were not
enough the step would be `none`. -/
def fuelFor (h : HT K V) : Nat := (h.buckets.flatten.map (·.2.length)).sum + 1

def step (c : Cfg K V) (h : HT K V) : Op K V → Option (Res K V × HT K V)
  | .insert k v => (insert c h k v).map fun h => (.bool true, h)
  | .remove k => (remove c h k).map fun (b, h) => (.bool b, h)
  | .get k => (get c h k).map fun v => (.val v, h)
  | .multiLen k => (multiLen c h k).map fun n => (.len n, h)
  | .multiGet k i => (multiGet c h k i).map fun v => (.val v, h)
  | .multiRemove k i => (multiRemove c h k i).map fun (b, h) => (.bool b, h)
  | .numKeys => some (.num h.numKeys, h)
  | .enumerate => (enumerate c h (fuelFor h)).map fun (n, l) => (.listing n l, h)

def run (c : Cfg K V) (h : HT K V) : List (Op K V) → Option (List (Res K V) × HT K V)
  | [] => some ([], h)
  | op :: ops =>
    match step c h op with
    | none => none
    | some (r, h) => (run c h ops).map fun (rs, h) => (r :: rs, h)

/-! ### Simulation -/

def total (s : List (Entry K V)) : Nat := (s.map (·.2.length)).sum

structure R (c : Cfg K V) (exact : Bool) (h : HT K V) (s : List (Entry K V)) : Prop where
  holds : Holds c h s
  nkeys : h.numKeys = s.length
  keys : c.ordered = true → h.keys = s.map (·.1)
  ksorted : c.keysSorted = true → s.Pairwise fun x y => c.cmp x.1 y.1 ≤ 0
  nonempty : ∀ e ∈ s, e.2 ≠ []
  single : c.multi = false → ∀ e ∈ s, e.2.length = 1
  vsorted : c.multiSorted = true → ∀ e ∈ s, e.2.Pairwise (fun a b => c.vcmp a b ≤ 0)
  enough : total s ≤ h.numValues
  exactly : exact = true → h.numValues = total s

theorem lookup_eq {c : Cfg K V} {s : List (Entry K V)} {k : K} : lookup c s k = (s.find? (isKey c k)).map (·.2) := rfl

theorem total_perm {s s' : List (Entry K V)} (p : s.Perm s') : total s = total s' := (p.map _).sum_nat

theorem total_append (a b : List (Entry K V)) : total (a ++ b) = total a + total b := by
  simp [total, List.map_append, List.sum_append]

theorem total_cons (e : Entry K V) (b : List (Entry K V)) : total (e :: b) = e.2.length + total b := by
  simp [total]

theorem total_filter {c : Cfg K V} (hc : Lawful c) {s : List (Entry K V)} (hd : Distinct c s) {k : K} {e}
    (hf : s.find? (isKey c k) = some e) :
    total (s.filter fun e => !isKey c k e) + e.2.length = total s ∧
      (s.filter fun e => !isKey c k e).length + 1 = s.length := by
  induction s with
  | nil => simp at hf
  | cons x s ih =>
    have hd' := List.pairwise_cons.1 hd
    rw [List.find?_cons] at hf
    rw [List.filter_cons]
    cases hx : isKey c k x with
    | true =>
      rw [hx] at hf
      simp only [Option.some.injEq] at hf
      subst hf
      have : s.filter (fun e => !isKey c k e) = s := by
        rw [List.filter_eq_self]
        intro y hy
        have h1 := hd'.1 y hy
        cases hyk : isKey c k y with
        | false => rfl
        | true =>
          simp only [isKey, decide_eq_true_eq] at hx hyk
          exact absurd (hc.key.eq_trans hx ((hc.key.eq_swap _ _).1 hyk)) h1
      simp only [Bool.not_true, Bool.false_eq_true, if_false, this, total_cons, List.length_cons]
      exact ⟨by omega, trivial⟩
    | false =>
      rw [hx] at hf
      obtain ⟨h1, h2⟩ := ih hd'.2 hf
      simp only [Bool.not_false, if_true, total_cons, List.length_cons]
      exact ⟨by omega, by omega⟩

theorem total_upd {c : Cfg K V} (hc : Lawful c) {s : List (Entry K V)} (hd : Distinct c s) {k : K} {e}
    (hf : s.find? (isKey c k) = some e) (f : List V → List V) :
    total (s.map (upd c k f)) + e.2.length = total s + (f e.2).length := by
  induction s with
  | nil => simp at hf
  | cons x s ih =>
    have hd' := List.pairwise_cons.1 hd
    rw [List.find?_cons] at hf
    rw [List.map_cons, total_cons, total_cons]
    cases hx : isKey c k x with
    | true =>
      rw [hx] at hf
      simp only [Option.some.injEq] at hf
      subst hf
      have : s.map (upd c k f) = s := by
        conv => rhs; rw [← List.map_id s]
        apply List.map_congr_left
        intro y hy
        have h1 := hd'.1 y hy
        cases hyk : isKey c k y with
        | false => simp [upd, hyk]
        | true =>
          simp only [isKey, decide_eq_true_eq] at hx hyk
          exact absurd (hc.key.eq_trans hx ((hc.key.eq_swap _ _).1 hyk)) h1
      rw [this]
      simp only [upd, hx, if_true]
      omega
    | false =>
      rw [hx] at hf
      have := ih hd'.2 hf
      simp only [upd, hx]
      simp only [Bool.false_eq_true, if_false]
      omega

theorem addKey_map {c : Cfg K V} (s : List (Entry K V)) (k : K) (v : V) (hks : c.keysSorted = true) :
    addKey c (s.map (·.1)) k =
      (s.takeWhile (fun x => decide (c.cmp x.1 k ≤ 0)) ++ (k, [v]) ::
        s.dropWhile (fun x => decide (c.cmp x.1 k ≤ 0))).map (·.1) := by
  unfold addKey
  rw [if_pos hks, List.takeWhile_map, List.dropWhile_map]
  simp only [List.map_append, List.map_cons]
  rfl

theorem mem_takeWhile {α : Type _} {p : α → Bool} {l : List α} {x : α} (h : x ∈ l.takeWhile p) : p x = true := by
  induction l with
  | nil => simp at h
  | cons y l ih =>
    rw [List.takeWhile_cons] at h
    split at h
    · next hy =>
      rcases List.mem_cons.1 h with rfl | h
      · exact hy
      · exact ih h
    · simp at h

theorem sorted_insert {c : Cfg K V} (hc : Lawful c) {s : List (Entry K V)} (k : K) (v : V)
    (hs : s.Pairwise fun x y => c.cmp x.1 y.1 ≤ 0) :
    (s.takeWhile (fun x => decide (c.cmp x.1 k ≤ 0)) ++ (k, [v]) ::
        s.dropWhile (fun x => decide (c.cmp x.1 k ≤ 0))).Pairwise fun x y => c.cmp x.1 y.1 ≤ 0 := by
  have hs' := hs
  rw [← List.takeWhile_append_dropWhile (p := fun x => decide (c.cmp x.1 k ≤ 0)) (l := s)] at hs'
  obtain ⟨h1, h2, h3⟩ := List.pairwise_append.1 hs'
  have hdrop : ∀ x ∈ s.dropWhile (fun x => decide (c.cmp x.1 k ≤ 0)), c.cmp k x.1 ≤ 0 := by
    cases hd : s.dropWhile (fun x => decide (c.cmp x.1 k ≤ 0)) with
    | nil => simp
    | cons y t =>
      have hy : ¬ c.cmp y.1 k ≤ 0 := by
        have := List.head?_dropWhile_not (fun x : Entry K V => decide (c.cmp x.1 k ≤ 0)) s
        rw [hd] at this
        simpa using this
      have hky : c.cmp k y.1 ≤ 0 := by
        have := (hc.key.lt_swap k y.1).2 (by omega); omega
      rw [hd] at h2
      intro x hx
      rcases List.mem_cons.1 hx with rfl | hx
      · exact hky
      · exact hc.key.trans _ _ _ hky ((List.pairwise_cons.1 h2).1 x hx)
  refine List.pairwise_append.2 ⟨h1, List.pairwise_cons.2 ⟨hdrop, h2⟩, ?_⟩
  intro a ha b hb
  have hak : c.cmp a.1 k ≤ 0 := by simpa using mem_takeWhile ha
  rcases List.mem_cons.1 hb with rfl | hb
  · exact hak
  · exact h3 a ha b hb

theorem eraseP_keys {c : Cfg K V} (hc : Lawful c) {s : List (Entry K V)} (hd : Distinct c s) {k : K} {e}
    (hf : s.find? (isKey c k) = some e) :
    (s.map (·.1)).eraseP (fun x => decide (c.cmp e.1 x = 0)) = (s.filter fun e => !isKey c k e).map (·.1) := by
  have hek : c.cmp e.1 k = 0 := by simpa [isKey] using List.find?_some hf
  induction s with
  | nil => simp at hf
  | cons x s ih =>
    have hd' := List.pairwise_cons.1 hd
    have hiff : decide (c.cmp e.1 x.1 = 0) = isKey c k x := by
      unfold isKey
      congr 1
      apply propext
      constructor
      · intro h; exact hc.key.eq_trans ((hc.key.eq_swap _ _).1 h) hek
      · intro h; exact hc.key.eq_trans hek ((hc.key.eq_swap _ _).1 h)
    rw [List.map_cons, List.eraseP_cons, hiff, List.filter_cons]
    rw [List.find?_cons] at hf
    cases hx : isKey c k x with
    | true =>
      rw [hx] at hf
      have : s.filter (fun e => !isKey c k e) = s := by
        rw [List.filter_eq_self]
        intro y hy
        have h1 := hd'.1 y hy
        cases hyk : isKey c k y with
        | false => rfl
        | true =>
          simp only [isKey, decide_eq_true_eq] at hx hyk
          exact absurd (hc.key.eq_trans hx ((hc.key.eq_swap _ _).1 hyk)) h1
      simp [this]
    | false =>
      rw [hx] at hf
      simp [ih hd'.2 hf]

theorem addVal_spec {c : Cfg K V} (hc : Lawful c) {vals : List V} (v : V)
    (hs : c.multiSorted = true → vals.Pairwise (fun a b => c.vcmp a b ≤ 0)) :
    ∃ new, addVal c vals v = some new ∧ new.length = vals.length + 1 ∧ (c.multi = true → Stored c vals v new) ∧
      (c.multiSorted = true → new.Pairwise (fun a b => c.vcmp a b ≤ 0)) := by
  unfold addVal
  cases hms : c.multiSorted with
  | true =>
    obtain ⟨i, h1, h2, h3⟩ := Sort.insertIdx_sorted_partial (hc.val hms) vals (hs hms) v false
    refine ⟨_, by rw [if_pos rfl, h1]; rfl, ?_, ?_, fun _ => h3⟩
    · simp; omega
    · intro hm
      unfold Stored
      rw [if_pos hm, if_pos hms]
      refine ⟨?_, h3⟩
      refine List.perm_middle.trans ?_
      rw [List.take_append_drop]
  | false =>
    refine ⟨vals ++ [v], by simp, by simp, ?_, by simp⟩
    intro hm
    unfold Stored
    rw [if_pos hm, if_neg (by simp [hms])]

theorem maybe_rehash {c : Cfg K V} (hc : Lawful c) {ex} {h : HT K V} {s} (hr : R c ex h s) :
    ∃ h', (if exceedsLoad c h then rehash c h else some h) = some h' ∧ R c ex h' s := by
  by_cases he : exceedsLoad c h = true
  · rw [if_pos he]
    obtain ⟨h', h1, h2, h3⟩ := rehash_spec hc hr.holds
    simp only [stays, Prod.mk.injEq] at h3
    obtain ⟨k1, k2, k3⟩ := h3
    exact ⟨h', h1, h2, k2.trans hr.nkeys, fun ho => k1.trans (hr.keys ho), hr.ksorted, hr.nonempty, hr.single,
      hr.vsorted, by rw [k3]; exact hr.enough, by rw [k3]; exact hr.exactly⟩
  · rw [if_neg he]; exact ⟨h, rfl, hr⟩

theorem upd_mem {c : Cfg K V} {s : List (Entry K V)} {k f} {P : List V → Prop} (h : ∀ e ∈ s, P e.2)
    (h' : ∀ e ∈ s, isKey c k e = true → P (f e.2)) : ∀ e ∈ s.map (upd c k f), P e.2 := by
  intro e he
  obtain ⟨x, hx, rfl⟩ := List.mem_map.1 he
  unfold upd
  cases hk : isKey c k x with
  | true => simpa using h' x hx hk
  | false => simpa using h x hx

theorem upd_keys {c : Cfg K V} (s : List (Entry K V)) (k f) : (s.map (upd c k f)).map (·.1) = s.map (·.1) := by
  rw [List.map_map]
  apply List.map_congr_left
  intro e _
  exact upd_key e

theorem upd_eq {c : Cfg K V} (s : List (Entry K V)) (k : K) (f) :
    s.map (upd c k f) = s.map fun e => if c.cmp e.1 k = 0 then (e.1, f e.2) else e := by
  apply List.map_congr_left
  intro e _
  simp [upd, isKey]

theorem keep_eq {c : Cfg K V} (s : List (Entry K V)) (k : K) :
    (s.filter fun e => !isKey c k e) = s.filter fun e => decide (c.cmp e.1 k ≠ 0) := by
  congr 1
  funext e
  simp [isKey]

theorem sim_insert {c : Cfg K V} (hc : Lawful c) {ex} {h : HT K V} {s} (hr : R c ex h s) (k : K) (v : V) :
    ∃ h' s', insert c h k v = some h' ∧ Spec c ex s (.insert k v) (.bool true) s' ∧ R c ex h' s' := by
  obtain ⟨b, hb⟩ := hr.holds.bucket k
  have hfind := hr.holds.find hc hb
  suffices key : ∃ h' s', insertDirect c h k v = some h' ∧ Spec c ex s (.insert k v) (.bool true) s' ∧ R c ex h' s' by
    obtain ⟨h1, s1, k1, k2, k3⟩ := key
    obtain ⟨h2, k4, k5⟩ := maybe_rehash hc k3
    exact ⟨h2, s1, by unfold insert; rw [k1]; exact k4, k2, k5⟩
  cases hm : getMatch c b k with
  | none =>
    have hno : s.find? (isKey c k) = none := by rw [← hfind]; exact getMatch_none.1 hm
    have hd : insertDirect c h k v = some { h with
        numKeys := h.numKeys + 1
        numCollisions := if b = [] then h.numCollisions else h.numCollisions + 1
        keys := if c.ordered then addKey c h.keys k else h.keys
        buckets := h.buckets.set (hashIdx c h k) (link b (k, [v]))
        numValues := h.numValues + 1 } := by
      unfold insertDirect; dsimp only; rw [hb]; dsimp only; rw [hm]
    have hR : ∀ s', s'.Perm ((k, [v]) :: s) → (c.ordered = true → addKey c (s.map (·.1)) k = s'.map (·.1)) →
        (c.keysSorted = true → s'.Pairwise fun x y => c.cmp x.1 y.1 ≤ 0) → R c ex { h with
        numKeys := h.numKeys + 1
        numCollisions := if b = [] then h.numCollisions else h.numCollisions + 1
        keys := if c.ordered then addKey c h.keys k else h.keys
        buckets := h.buckets.set (hashIdx c h k) (link b (k, [v]))
        numValues := h.numValues + 1 } s' := by
      intro s' hp hk hks
      have ht : total s' = total s + 1 := by rw [total_perm hp, total_cons]; simp; omega
      refine ⟨hr.holds.link (e := (k, [v])) hc hb hno rfl rfl hp, ?_, ?_, hks, ?_, ?_, ?_, ?_, ?_⟩
      · rw [hp.length_eq, List.length_cons]; simp [hr.nkeys]
      · intro ho
        simp only
        rw [if_pos ho, hr.keys ho]; exact hk ho
      · intro e he
        rcases List.mem_cons.1 (hp.mem_iff.1 he) with rfl | he
        · simp
        · exact hr.nonempty e he
      · intro hmu e he
        rcases List.mem_cons.1 (hp.mem_iff.1 he) with rfl | he
        · rfl
        · exact hr.single hmu e he
      · intro hmu e he
        rcases List.mem_cons.1 (hp.mem_iff.1 he) with rfl | he
        · simp
        · exact hr.vsorted hmu e he
      · have := hr.enough; simp only; omega
      · intro hx; have := hr.exactly hx; simp only; omega
    cases hks : c.keysSorted with
    | true =>
      refine ⟨_, _, hd, ⟨rfl, ?_⟩, hR _ ?_ (fun _ => addKey_map s k v hks) (fun _ => sorted_insert hc k v (hr.ksorted hks))⟩
      · rw [lookup_eq, hno]
        simp only [Option.map_none]
        rw [if_pos hks]
        exact ⟨_, _, (List.takeWhile_append_dropWhile).symm, rfl, sorted_insert hc k v (hr.ksorted hks)⟩
      · refine List.perm_middle.trans ?_
        rw [List.takeWhile_append_dropWhile]
    | false =>
      refine ⟨_, s ++ [(k, [v])], hd, ⟨rfl, ?_⟩, hR _ ?_ ?_ (by simp [hks])⟩
      · rw [lookup_eq, hno]
        simp [hks]
      · exact List.perm_append_comm
      · intro _
        unfold addKey
        rw [if_neg (by simp [hks])]
        simp
  | some p =>
    obtain ⟨e, hp, hf⟩ := getMatch_some hm
    rw [hfind] at hf
    have hk : isKey c k e = true := List.find?_some hf
    have hes : e ∈ s := List.mem_of_find?_eq_some hf
    have hlk : lookup c s k = some e.2 := by rw [lookup_eq, hf]; rfl
    have hcommon : ∀ (new : List V) (nv : Nat), new ≠ [] → (c.multi = false → new.length = 1) →
        (c.multiSorted = true → new.Pairwise (fun a b => c.vcmp a b ≤ 0)) →
        Stored c e.2 v new → nv + e.2.length = h.numValues + new.length →
        ∃ s', Spec c ex s (.insert k v) (.bool true) s' ∧
          R c ex { h with
            buckets := h.buckets.set (hashIdx c h k) (b.set p (e.1, new))
            numValues := nv } s' := by
      intro new nv h1 h2 h3 h4 h5
      refine ⟨s.map (upd c k fun _ => new), ⟨rfl, ?_⟩, ?_⟩
      · rw [hlk]
        exact ⟨new, h4, upd_eq s k _⟩
      · have ht := total_upd hc hr.holds.dist hf fun _ => new
        refine ⟨hr.holds.set hc hb hp hk (fun _ => new) rfl rfl, by rw [List.length_map]; exact hr.nkeys, ?_, ?_,
          upd_mem (P := fun l => l ≠ []) hr.nonempty (fun _ _ _ => h1),
          fun hmu => upd_mem (P := fun l => l.length = 1) (hr.single hmu) (fun _ _ _ => h2 hmu),
          fun hmu => upd_mem (P := fun l => l.Pairwise (fun a b => c.vcmp a b ≤ 0)) (hr.vsorted hmu) (fun _ _ _ => h3 hmu),
          ?_, ?_⟩
        · intro ho; rw [upd_keys]; exact hr.keys ho
        · intro hks
          rw [List.pairwise_map]
          refine List.Pairwise.imp ?_ (hr.ksorted hks)
          intro a b h; rw [upd_key, upd_key]; exact h
        · have := hr.enough; simp only; omega
        · intro hx; have := hr.exactly hx; simp only; omega
    cases hmu : c.multi with
    | true =>
      obtain ⟨new, h1, h2, h3, h4⟩ := addVal_spec hc (vals := e.2) v (fun hs => hr.vsorted hs e hes)
      obtain ⟨s', h5, h6⟩ := hcommon new (h.numValues + 1) (by intro h0; simp [h0] at h2) (by simp [hmu]) h4 (h3 hmu)
        (by omega)
      refine ⟨_, s', ?_, h5, h6⟩
      unfold insertDirect; dsimp only; rw [hb]; dsimp only; rw [hm]; dsimp only; rw [hp]; dsimp only
      rw [if_pos hmu, h1]; rfl
    | false =>
      have hlen := hr.single hmu e hes
      obtain ⟨s', h5, h6⟩ := hcommon [v] h.numValues (by simp) (by simp) (by simp)
        (by unfold Stored; rw [if_neg (by simp [hmu])]) (by simp; omega)
      refine ⟨_, s', ?_, h5, h6⟩
      unfold insertDirect; dsimp only; rw [hb]; dsimp only; rw [hm]; dsimp only; rw [hp]; dsimp only
      rw [if_neg (by simp [hmu])]

theorem sim_remove {c : Cfg K V} (hc : Lawful c) {ex} {h : HT K V} {s} (hr : R c ex h s) (k : K) :
    ∃ h', remove c h k = some ((lookup c s k).isSome, h') ∧
      R c ex h' (s.filter fun e => decide (c.cmp e.1 k ≠ 0)) := by
  obtain ⟨b, hb⟩ := hr.holds.bucket k
  have hfind := hr.holds.find hc hb
  cases hm : getMatch c b k with
  | none =>
    have hno : s.find? (isKey c k) = none := by rw [← hfind]; exact getMatch_none.1 hm
    refine ⟨h, ?_, ?_⟩
    · unfold remove; dsimp only; rw [hb]; dsimp only; rw [hm, lookup_eq, hno]; rfl
    · rw [← keep_eq, List.filter_eq_self.2]
      · exact hr
      · intro e he
        have := List.find?_eq_none.1 hno e he
        simpa using this
  | some p =>
    obtain ⟨e, hp, hf⟩ := getMatch_some hm
    rw [hfind] at hf
    have hk : isKey c k e = true := List.find?_some hf
    obtain ⟨ht1, ht2⟩ := total_filter hc hr.holds.dist hf
    have hd : remove c h k = some (true, { h with
          keys := if c.ordered then h.keys.eraseP (fun x => decide (c.cmp e.1 x = 0)) else h.keys
          buckets := h.buckets.set (hashIdx c h k) (unlink b p)
          numKeys := h.numKeys - 1
          numValues := h.numValues - e.2.length }) := by
      unfold remove; dsimp only; rw [hb]; dsimp only; rw [hm]; dsimp only; rw [hp]
    refine ⟨_, by rw [hd, lookup_eq, hf]; rfl, ?_⟩
    · rw [← keep_eq]
      have hsub : ∀ e ∈ s.filter (fun e => !isKey c k e), e ∈ s := fun e he => (List.mem_filter.1 he).1
      refine ⟨hr.holds.erase hc hb hp hk rfl rfl, ?_, ?_, ?_, fun e he => hr.nonempty e (hsub e he),
        fun hmu e he => hr.single hmu e (hsub e he), fun hmu e he => hr.vsorted hmu e (hsub e he), ?_, ?_⟩
      · have := hr.nkeys; simp only; omega
      · intro ho
        simp only
        rw [if_pos ho, hr.keys ho, eraseP_keys hc hr.holds.dist hf]
      · intro hks; exact (hr.ksorted hks).filter _
      · have := hr.enough; simp only; omega
      · intro hx; have := hr.exactly hx; simp only; omega

theorem sim_multiRemove {c : Cfg K V} (hc : Lawful c) {ex} {h : HT K V} {s} (hr : R c ex h s) (k : K) (i : Nat) :
    ∃ r h' s', multiRemove c h k i = some (r, h') ∧ Spec c false s (.multiRemove k i) (.bool r) s' ∧ R c false h' s' := by
  have hr' : R c false h s := ⟨hr.holds, hr.nkeys, hr.keys, hr.ksorted, hr.nonempty, hr.single, hr.vsorted, hr.enough,
    by simp⟩
  cases hmu : c.multi with
  | false =>
    refine ⟨false, h, s, by simp [multiRemove, hmu], ?_, hr'⟩
    simp [Spec, hmu]
  | true =>
    obtain ⟨b, hb⟩ := hr.holds.bucket k
    have hfind := hr.holds.find hc hb
    cases hm : getMatch c b k with
    | none =>
      have hno : s.find? (isKey c k) = none := by rw [← hfind]; exact getMatch_none.1 hm
      refine ⟨false, h, s, ?_, ?_, hr'⟩
      · unfold multiRemove
        rw [if_neg (by simp [hmu])]
        dsimp only; rw [hb]; dsimp only; rw [hm]
      · simp [Spec, lookup_eq, hno]
    | some p =>
      obtain ⟨e, hp, hf⟩ := getMatch_some hm
      rw [hfind] at hf
      have hk : isKey c k e = true := List.find?_some hf
      have hes : e ∈ s := List.mem_of_find?_eq_some hf
      have hlk : lookup c s k = some e.2 := by rw [lookup_eq, hf]; rfl
      have hun : multiRemove c h k i = if i ≥ e.2.length then some (false, h)
          else if e.2.length = 1 then remove c h k
          else some (true, { h with buckets := h.buckets.set (hashIdx c h k) (b.set p (e.1, e.2.eraseIdx i)) }) := by
        conv => lhs; unfold multiRemove
        rw [if_neg (by simp [hmu])]
        dsimp only; rw [hb]; dsimp only; rw [hm]; dsimp only; rw [hp]
      by_cases hi : i < e.2.length
      · have hspec : ∀ s', Spec c false s (.multiRemove k i) (.bool true) s' ↔
            s' = (s.map (upd c k (·.eraseIdx i))).filter fun e => !e.2.isEmpty := by
          intro s'
          simp only [Spec]
          rw [if_pos ⟨hmu, e.2, hlk, hi⟩, upd_eq]
          simp
        by_cases h1 : e.2.length = 1
        · obtain ⟨h', k1, k2⟩ := sim_remove hc hr' k
          refine ⟨true, h', _, ?_, ?_, k2⟩
          · rw [hun, if_neg (by omega), if_pos h1, k1, hlk]; rfl
          · rw [hspec, ← keep_eq]
            have : ∀ x ∈ s, isKey c k x = true → x = e := fun x hx hxk => by
              have := (find?_iff hc hr.holds.dist).2 ⟨hx, hxk⟩
              rw [hf] at this; injection this with this; exact this.symm
            have hne := hr.nonempty
            clear hspec hr hr' hfind hf hes hlk k1 k2
            induction s with
            | nil => rfl
            | cons x s ih =>
              rw [List.filter_cons, List.map_cons, List.filter_cons,
                ih (fun y hy => this y (by simp [hy])) (fun y hy => hne y (by simp [hy]))]
              cases hx : isKey c k x with
              | true =>
                have hxe := this x (by simp) hx
                subst hxe
                have : x.2.eraseIdx i = [] := by
                  apply List.eq_nil_of_length_eq_zero
                  rw [List.length_eraseIdx, if_pos hi]; omega
                simp [upd, hx, this]
              | false =>
                have hx2 := hne x (by simp)
                have : x.2.isEmpty = false := by simpa using hx2
                simp [upd, hx, this]
        · have ht := total_upd hc hr.holds.dist hf (·.eraseIdx i)
          have hle : (e.2.eraseIdx i).length + 1 = e.2.length := by
            rw [List.length_eraseIdx, if_pos hi]; omega
          have hun2 : ∀ x ∈ s, isKey c k x = true → x = e := fun x hx hxk => by
            have := (find?_iff hc hr.holds.dist).2 ⟨hx, hxk⟩
            rw [hf] at this; injection this with this; exact this.symm
          have hne : ∀ x ∈ s.map (upd c k (·.eraseIdx i)), x.2 ≠ [] :=
            upd_mem (P := fun l => l ≠ []) hr.nonempty (fun x hx hxk => by
              rw [hun2 x hx hxk]
              intro h0
              rw [h0] at hle
              simp at hle
              omega)
          refine ⟨true, _, s.map (upd c k (·.eraseIdx i)), by rw [hun, if_neg (by omega), if_neg h1], ?_, ?_⟩
          · rw [hspec]
            symm
            rw [List.filter_eq_self]
            intro x hx
            simpa using hne x hx
          · refine ⟨hr.holds.set hc hb hp hk (·.eraseIdx i) rfl rfl, by rw [List.length_map]; exact hr.nkeys, ?_, ?_,
              hne, fun hh => by simp [hmu] at hh,
              fun hms => upd_mem (P := fun l => l.Pairwise (fun a b => c.vcmp a b ≤ 0)) (hr.vsorted hms)
                (fun x hx _ => (hr.vsorted hms x hx).sublist (List.eraseIdx_sublist _ _)), ?_, by simp⟩
            · intro ho; rw [upd_keys]; exact hr.keys ho
            · intro hks
              rw [List.pairwise_map]
              refine List.Pairwise.imp ?_ (hr.ksorted hks)
              intro a b h; rw [upd_key, upd_key]; exact h
            · have := hr.enough; simp only; omega
      · refine ⟨false, h, s, by rw [hun, if_pos (by omega)], ?_, hr'⟩
        simp only [Spec]
        rw [if_neg]
        · simp
        · rintro ⟨_, vs, h1, h2⟩
          rw [hlk] at h1
          injection h1 with h1
          subst h1
          exact hi h2

/-! ### Enumeration -/

def pairs (e : Entry K V) : List (K × Option V) := e.2.map fun v => (e.1, some v)

theorem allPairs_eq (s : List (Entry K V)) : allPairs s = s.flatMap pairs := rfl

theorem allPairs_length (s : List (Entry K V)) : (allPairs s).length = total s := by
  induction s with
  | nil => rfl
  | cons e s ih => rw [allPairs_eq, List.flatMap_cons, List.length_append, ← allPairs_eq, ih, total_cons]; simp [pairs]

/-- What an unordered enumeration still has to yield. -/
def remU (h : HT K V) (st : EnumU) : List (K × Option V) :=
  match h.buckets.drop st.hash with
  | [] => []
  | b :: bs => ((b.drop st.chainid).flatMap pairs).drop st.valueidx ++ bs.flatten.flatMap pairs

def okU (h : HT K V) (st : EnumU) : Prop :=
  st.valueidx = 0 ∨ ∃ b e, h.buckets[st.hash]? = some b ∧ b[st.chainid]? = some e ∧ st.valueidx < e.2.length

theorem enumNextU_spec {c : Cfg K V} {ex} {h : HT K V} {s} (hr : R c ex h s) (n : Nat) : ∀ st : EnumU,
    n = h.size - st.hash → okU h st →
    (remU h st = [] ∧ enumNextU c h n st = some none) ∨
    (∃ kv st', enumNextU c h n st = some (some (kv, st')) ∧ remU h st = kv :: remU h st' ∧ okU h st') := by
  have hlen := hr.holds.len
  induction n with
  | zero =>
    intro st hn _
    left
    refine ⟨?_, rfl⟩
    unfold remU
    rw [List.drop_of_length_le (by omega)]
  | succ n ih =>
    intro st hn hok
    have hlt : st.hash < h.buckets.length := by omega
    have hb : h.buckets[st.hash]? = some h.buckets[st.hash] := List.getElem?_eq_getElem hlt
    have hrem : remU h st = (((h.buckets[st.hash]).drop st.chainid).flatMap pairs).drop st.valueidx ++
        (h.buckets.drop (st.hash + 1)).flatten.flatMap pairs := by
      conv => lhs; unfold remU
      rw [List.drop_eq_getElem_cons hlt]
    unfold enumNextU
    rw [hb]
    dsimp only
    cases he : (h.buckets[st.hash])[st.chainid]? with
    | none =>
      dsimp only
      have hv : st.valueidx = 0 := by
        rcases hok with h0 | ⟨b, e, h1, h2, _⟩
        · exact h0
        · rw [hb] at h1
          injection h1 with h1
          subst h1
          rw [he] at h2; cases h2
      have hnext : remU h st = remU h { st with hash := st.hash + 1, chainid := 0 } := by
        rw [hrem, List.drop_of_length_le (List.getElem?_eq_none_iff.1 he), hv]
        unfold remU
        simp only [List.flatMap_nil, List.drop_nil, List.nil_append, hv]
        cases h.buckets.drop (st.hash + 1) with
        | nil => rfl
        | cons b bs => simp
      have := ih { st with hash := st.hash + 1, chainid := 0 } (by simp only; omega) (Or.inl hv)
      rw [hnext]
      exact this
    | some e =>
      obtain ⟨hcl, hce⟩ := List.getElem?_eq_some_iff.1 he
      dsimp only
      have hes : e ∈ s := hr.holds.perm.mem_iff.1 (mem_bucket hb (List.mem_of_getElem? he))
      have hne := hr.nonempty e hes
      have hpos : 0 < e.2.length := List.length_pos_iff.2 hne
      have hv : st.valueidx < e.2.length := by
        rcases hok with h0 | ⟨b, e', h1, h2, h3⟩
        · omega
        · rw [hb] at h1
          injection h1 with h1
          subst h1
          rw [he] at h2
          injection h2 with h2
          subst h2
          exact h3
      have hpl : st.valueidx ≤ (pairs e).length := by simp [pairs]; omega
      have hdrop : ((h.buckets[st.hash]).drop st.chainid).flatMap pairs =
          pairs e ++ ((h.buckets[st.hash]).drop (st.chainid + 1)).flatMap pairs := by
        rw [List.drop_eq_getElem_cons hcl, hce, List.flatMap_cons]
      have hkv : (pairs e).drop st.valueidx = (e.1, e.2[st.valueidx]?) :: (pairs e).drop (st.valueidx + 1) := by
        rw [List.drop_eq_getElem_cons (by simp [pairs]; exact hv)]
        congr 1
        simp [pairs, hv]
      have hlast : st.valueidx + 1 ≥ e.2.length → remU h st = (e.1, e.2[st.valueidx]?) ::
          remU h { hash := st.hash, chainid := st.chainid + 1, valueidx := 0 } := by
        intro hl
        rw [hrem, hdrop, List.drop_append_of_le_length hpl, hkv, List.drop_of_length_le (by simp [pairs]; exact hl)]
        conv => rhs; unfold remU
        simp only [List.drop_eq_getElem_cons hlt, List.drop_zero, List.cons_append, List.nil_append]
      right
      cases hmu : c.multi with
      | true =>
        rw [if_pos rfl]
        by_cases hl : st.valueidx + 1 ≥ e.2.length
        · rw [if_pos hl]
          exact ⟨_, _, rfl, hlast hl, Or.inl rfl⟩
        · rw [if_neg hl]
          refine ⟨_, _, rfl, ?_, Or.inr ⟨_, e, hb, he, by simp only; omega⟩⟩
          rw [hrem, hdrop, List.drop_append_of_le_length hpl, hkv]
          conv => rhs; unfold remU
          simp only [List.drop_eq_getElem_cons hlt]
          rw [hdrop, List.drop_append_of_le_length (by simp [pairs]; omega)]
          rfl
      | false =>
        rw [if_neg (by simp)]
        have h1 := hr.single hmu e hes
        have h0 : st.valueidx = 0 := by omega
        refine ⟨_, _, rfl, ?_, Or.inl rfl⟩
        have := hlast (by omega)
        rw [h0] at this
        exact this

theorem enumAllU_spec {c : Cfg K V} {ex} {h : HT K V} {s} (hr : R c ex h s) (fuel : Nat) : ∀ st, okU h st →
    (remU h st).length < fuel → enumAllU c h fuel st = some (remU h st) := by
  induction fuel with
  | zero => intro st _ h; omega
  | succ fuel ih =>
    intro st hok hf
    unfold enumAllU
    rcases enumNextU_spec hr _ st rfl hok with ⟨h1, h2⟩ | ⟨kv, st', h1, h2, h3⟩
    · rw [h2, h1]
    · rw [h1]
      dsimp only
      rw [h2] at hf ⊢
      rw [ih st' h3 (by simp at hf; omega)]
      rfl

theorem enumAllO_spec {c : Cfg K V} (hc : Lawful c) {ex} {h : HT K V} {s} (hr : R c ex h s) (fuel : Nat) :
    ∀ (t : List (Entry K V)) (vi : Nat), (∀ e ∈ t, e ∈ s) → (∀ e t', t = e :: t' → vi < e.2.length) →
    (c.multi = false → vi = 0) → (t = [] → vi = 0) →
    ((t.flatMap pairs).drop vi).length < fuel →
    enumAllO c h fuel (t.map (·.1)) vi = some ((t.flatMap pairs).drop vi) := by
  induction fuel with
  | zero => intro t vi _ _ _ _ h; omega
  | succ fuel ih =>
    intro t vi hsub hvi hsv hnil hf
    cases t with
    | nil => simp [enumAllO, enumNextO]
    | cons e t =>
      have hv := hvi e t rfl
      have hes := hsub e (by simp)
      have hentry : entry? c h e.1 = some (some e) := by
        rw [entry?_eq hc hr.holds, (find?_iff hc hr.holds.dist).2 ⟨hes, by simp [isKey, hc.key.refl]⟩]
      have hkv : (pairs e).drop vi = (e.1, e.2[vi]?) :: (pairs e).drop (vi + 1) := by
        rw [List.drop_eq_getElem_cons (by simp [pairs]; exact hv)]
        congr 1
        simp [pairs, hv]
      rw [List.flatMap_cons, List.drop_append_of_le_length (by simp [pairs]; omega), hkv] at hf ⊢
      simp only [List.cons_append, List.length_cons, List.length_append] at hf
      have hnext : ∀ vi', vi' = 0 → vi + 1 ≥ e.2.length →
          enumAllO c h fuel (t.map (·.1)) vi' = some ((pairs e).drop (vi + 1) ++ t.flatMap pairs) := by
        intro vi' h0 hl
        subst h0
        have hd0 : (pairs e).drop (vi + 1) = [] := List.drop_of_length_le (by simp [pairs]; exact hl)
        rw [hd0] at hf ⊢
        have := ih t 0 (fun x hx => hsub x (by simp [hx])) (fun x t' ht => by
            have := hr.nonempty x (hsub x (by simp [ht])); exact List.length_pos_iff.2 this)
          (fun _ => rfl) (fun _ => rfl) (by rw [List.drop_zero]; simp at hf ⊢; omega)
        rw [this]; rfl
      unfold enumAllO
      cases hmu : c.multi with
      | true =>
        have hg : multiGet c h e.1 vi = some (some e.2[vi]) := by
          simp [multiGet, hmu, hentry, hv]
        have hl : multiLen c h e.1 = some (some e.2.length) := by
          simp [multiLen, hmu, hentry]
        simp only [List.map_cons, enumNextO, hmu, if_true, hg, hl]
        by_cases hlast : vi + 1 ≥ e.2.length
        · rw [if_pos hlast]
          dsimp only
          rw [hnext 0 rfl hlast]
          simp [hv]
        · rw [if_neg hlast]
          dsimp only
          have := ih (e :: t) (vi + 1) hsub (fun x t' ht => by injection ht with h1 h2; subst h1; omega)
            (by simp [hmu]) (by simp)
            (by rw [List.flatMap_cons, List.drop_append_of_le_length (by simp [pairs]; omega), List.length_append]; omega)
          rw [List.map_cons] at this
          rw [this, List.flatMap_cons, List.drop_append_of_le_length (by simp [pairs]; omega)]
          simp [hv]
      | false =>
        have h1 := hr.single hmu e hes
        have h0 := hsv hmu
        have hg : get c h e.1 = some e.2[0]? := by
          simp [get, hentry, hmu]
        simp only [List.map_cons, enumNextO, hmu, hg]
        simp only [Bool.false_eq_true, if_false]
        rw [hnext vi h0 (by omega)]
        simp [h0]

theorem enumerate_spec {c : Cfg K V} (hc : Lawful c) {ex} {h : HT K V} {s} (hr : R c ex h s) (fuel : Nat)
    (hf : total s < fuel) :
    ∃ l, enumerate c h fuel = some (h.numValues, l) ∧ l.Perm (allPairs s) ∧ (c.ordered = true → l = allPairs s) := by
  have hlen := allPairs_length s
  unfold enumerate
  cases ho : c.ordered with
  | true =>
    have := enumAllO_spec hc hr fuel s 0 (fun _ h => h) (fun e t' ht => by
      have := hr.nonempty e (by simp [ht]); exact List.length_pos_iff.2 this) (fun _ => rfl) (fun _ => rfl)
      (by rw [List.drop_zero, ← allPairs_eq]; omega)
    rw [List.drop_zero, ← allPairs_eq] at this
    rw [if_pos rfl, hr.keys ho, this]
    exact ⟨_, rfl, List.Perm.refl _, fun _ => rfl⟩
  | false =>
    have hrem : remU h { hash := 0, chainid := 0, valueidx := 0 } = h.buckets.flatten.flatMap pairs := by
      unfold remU
      simp only [List.drop_zero]
      cases h.buckets with
      | nil => rfl
      | cons b bs => simp
    have hp : (h.buckets.flatten.flatMap pairs).Perm (allPairs s) := hr.holds.perm.flatMap_right _
    rw [if_neg (by simp), enumAllU_spec hr fuel _ (Or.inl rfl) (by rw [hrem, hp.length_eq]; omega), hrem]
    exact ⟨_, rfl, hp, by simp⟩

/-! ### Histories -/

def Op.isMultiRemove : Op K V → Bool
  | .multiRemove _ _ => true
  | _ => false

theorem sim_step {c : Cfg K V} (hc : Lawful c) {ex} {h : HT K V} {s} (hr : R c ex h s) (op : Op K V)
    (hex : ex = true → op.isMultiRemove = false) :
    ∃ r h' s', step c h op = some (r, h') ∧ Spec c ex s op r s' ∧ R c ex h' s' := by
  have hent := fun k => entry?_eq hc hr.holds k
  cases op with
  | insert k v =>
    obtain ⟨h', s', h1, h2, h3⟩ := sim_insert hc hr k v
    exact ⟨_, h', s', by simp [step, h1], h2, h3⟩
  | remove k =>
    obtain ⟨h', h1, h2⟩ := sim_remove hc hr k
    exact ⟨_, h', _, by simp [step, h1], ⟨rfl, rfl⟩, h2⟩
  | get k =>
    have hg : get c h k =
        some ((lookup c s k).bind fun vs => if c.multi && c.getLast then vs.getLast? else vs.head?) := by
      rw [lookup_eq]
      unfold get
      rw [hent]
      cases hf : s.find? (isKey c k) with
      | none => rfl
      | some e =>
        simp only [Option.map_some, Option.bind_some]
        congr 1
        by_cases hm : (c.multi && c.getLast) = true
        · rw [if_pos hm, if_pos hm, List.getLast?_eq_getElem?]
        · rw [if_neg hm, if_neg hm, List.head?_eq_getElem?]
    exact ⟨_, h, s, by simp only [step, hg]; rfl, ⟨rfl, rfl⟩, hr⟩
  | multiLen k =>
    have hg : multiLen c h k = some (if c.multi then (lookup c s k).map List.length else none) := by
      rw [lookup_eq]
      cases hf : s.find? (isKey c k) <;> cases hm : c.multi <;> simp [multiLen, hm, hent, hf]
    exact ⟨_, h, s, by simp only [step, hg]; rfl, ⟨rfl, rfl⟩, hr⟩
  | multiGet k i =>
    have hg : multiGet c h k i = some (if c.multi then (lookup c s k).bind (·[i]?) else none) := by
      rw [lookup_eq]
      cases hf : s.find? (isKey c k) <;> cases hm : c.multi <;> simp [multiGet, hm, hent, hf]
    exact ⟨_, h, s, by simp only [step, hg]; rfl, ⟨rfl, rfl⟩, hr⟩
  | multiRemove k i =>
    obtain ⟨r, h', s', h1, h2, h3⟩ := sim_multiRemove hc hr k i
    cases ex with
    | true => simp [Op.isMultiRemove] at hex
    | false => exact ⟨.bool r, h', s', by simp [step, h1], h2, h3⟩
  | numKeys => exact ⟨_, h, s, rfl, ⟨rfl, by rw [hr.nkeys]⟩, hr⟩
  | enumerate =>
    obtain ⟨l, h1, h2, h3⟩ := enumerate_spec hc hr (fuelFor h) (by
      have := total_perm hr.holds.perm
      unfold fuelFor
      unfold total at *
      omega)
    refine ⟨_, h, s, by simp only [step, h1]; rfl, ⟨rfl, h.numValues, l, rfl, h2, h3, ?_⟩, hr⟩
    intro hx
    rw [hr.exactly hx, h2.length_eq, allPairs_length]

theorem sim_run {c : Cfg K V} (hc : Lawful c) {ex} (ops : List (Op K V))
    (hex : ex = true → ∀ op ∈ ops, op.isMultiRemove = false) : ∀ {h : HT K V} {s}, R c ex h s →
    ∃ rs h' s', run c h ops = some (rs, h') ∧ SpecRun c ex s ops rs s' ∧ R c ex h' s' := by
  induction ops with
  | nil => intro h s hr; exact ⟨[], h, s, rfl, .nil s, hr⟩
  | cons op ops ih =>
    intro h s hr
    obtain ⟨r, h1, s1, k1, k2, k3⟩ := sim_step hc hr op (fun hx => hex hx op (by simp))
    obtain ⟨rs, h2, s2, k4, k5, k6⟩ := ih (fun hx o ho => hex hx o (by simp [ho])) k3
    exact ⟨r :: rs, h2, s2, by simp [run, k1, k4], .cons k2 k5, k6⟩

theorem roundUp_pow (n : Nat) (h : n ≤ 2 ^ 63) : ∃ e, roundUp n = 2 ^ e := by
  unfold roundUp
  by_cases h1 : n ≤ 1
  · rw [if_pos h1]; exact ⟨0, rfl⟩
  · rw [if_neg h1]
    have h2 : Nat.log2 (n - 1) < 63 := (Nat.log2_lt (by omega)).2 (by omega)
    have h3 : 2 ^ (Nat.log2 (n - 1) + 1) ≤ 2 ^ 63 := Nat.pow_le_pow_right (by omega) (by omega)
    exact ⟨_, Nat.mod_eq_of_lt (by omega)⟩

theorem create_R {c : Cfg K V} (ex : Bool) {size : Nat} (hs : size ≤ 2 ^ 63) {h : HT K V} (hcr : create c size = some h) :
    R c ex h [] := by
  unfold create at hcr
  split at hcr
  · cases hcr
  next h0 =>
  split at hcr
  · cases hcr
  split at hcr
  · cases hcr
  injection hcr with hcr
  have hp : ∃ e, h.size = 2 ^ e ∧ e ≤ 24 := by
    have hsz : h.size = if roundUp size > maxBuckets then maxBuckets else roundUp size := by
      rw [← hcr]
    obtain ⟨e, he⟩ := roundUp_pow size hs
    rw [hsz]
    by_cases hle : roundUp size > maxBuckets
    · rw [if_pos hle]; exact ⟨24, rfl, Nat.le_refl _⟩
    · rw [if_neg hle]
      rw [he] at hle ⊢
      refine ⟨e, rfl, ?_⟩
      unfold maxBuckets at hle
      exact (Nat.pow_le_pow_iff_right (a := 2) (by omega)).1 (by omega)
  refine ⟨⟨hp, ?_, ?_, ?_, List.Pairwise.nil⟩, ?_, ?_, fun _ => List.Pairwise.nil, by simp, by simp, by simp, by simp [total], ?_⟩
  · rw [← hcr]; simp
  · intro i b hb e he
    have hbm := List.mem_of_getElem? hb
    rw [← hcr] at hbm
    rw [(List.mem_replicate.1 hbm).2] at he
    simp at he
  · rw [← hcr]; simp
  · rw [← hcr]; rfl
  · intro _; rw [← hcr]; rfl
  · intro _; rw [← hcr]; rfl

/-- C09, C10, C11: for every hash function compatible with key equality, every initial size (up to 2^63) and fill
percentage, every flag combination accepted by create and every history, no call leaves the bucket array, and every
result is the one of the specification `Spec`.  The number announced by enumerations is part of the statement for
histories without `multi_remove` (see `announced_count_fails`). -/
theorem hashtable_correct {c : Cfg K V} (hc : Lawful c) {size : Nat} (hs : size ≤ 2 ^ 63) {h : HT K V}
    (hcr : create c size = some h) (ops : List (Op K V)) :
    ∃ rs h' s, run c h ops = some (rs, h') ∧ SpecRun c (ops.all fun op => !op.isMultiRemove) [] ops rs s := by
  obtain ⟨rs, h', s, h1, h2, _⟩ := sim_run hc (ex := ops.all fun op => !op.isMultiRemove) ops (by
    intro hx op hop
    have := List.all_eq_true.1 hx op hop
    simpa using this) (create_R _ hs hcr)
  exact ⟨rs, h', s, h1, h2⟩

/-! ### C09 as a statement about the history alone -/

/-- The value of the latest insert of a key equal to `k` that no remove of an equal key follows. -/
def latest (c : Cfg K V) (k : K) : List (Op K V) → Option V → Option V
  | [], cur => cur
  | .insert k' v :: ops, cur => latest c k ops (if c.cmp k' k = 0 then some v else cur)
  | .remove k' :: ops, cur => latest c k ops (if c.cmp k' k = 0 then none else cur)
  | _ :: ops, cur => latest c k ops cur

theorem lookup_upd {c : Cfg K V} (hc : Lawful c) (s : List (Entry K V)) (k k' : K) (new : List V) :
    lookup c (s.map fun e => if c.cmp e.1 k' = 0 then (e.1, new) else e) k =
      (lookup c s k).map fun old => if c.cmp k' k = 0 then new else old := by
  rw [← upd_eq s k' fun _ => new, lookup_eq, lookup_eq, List.find?_map]
  have : (isKey c k ∘ upd c k' fun _ => new) = isKey c k := by
    funext e; simp [isKey, upd_key]
  rw [this]
  cases hf : s.find? (isKey c k) with
  | none => rfl
  | some e =>
    have hk : c.cmp e.1 k = 0 := by simpa [isKey] using List.find?_some hf
    have hiff : c.cmp e.1 k' = 0 ↔ c.cmp k' k = 0 :=
      ⟨fun h => hc.key.eq_trans ((hc.key.eq_swap _ _).1 h) hk, fun h => hc.key.eq_trans hk ((hc.key.eq_swap _ _).1 h)⟩
    simp only [Option.map_some, upd, isKey, decide_eq_true_eq]
    by_cases h : c.cmp k' k = 0
    · rw [if_pos (hiff.2 h), if_pos h]
    · rw [if_neg (fun hh => h (hiff.1 hh)), if_neg h]

theorem lookup_none {c : Cfg K V} {s : List (Entry K V)} {k : K} :
    lookup c s k = none ↔ ∀ e ∈ s, c.cmp e.1 k ≠ 0 := by
  rw [lookup_eq, Option.map_eq_none_iff, List.find?_eq_none]
  simp [isKey]

theorem lookup_insert_new {c : Cfg K V} (hc : Lawful c) {a b : List (Entry K V)} {k k' : K} {vs : List V}
    (hno : lookup c (a ++ b) k' = none) :
    lookup c (a ++ (k', vs) :: b) k = if c.cmp k' k = 0 then some vs else lookup c (a ++ b) k := by
  have hno' := lookup_none.1 hno
  rw [lookup_eq, lookup_eq, List.find?_append, List.find?_append, List.find?_cons]
  by_cases h : c.cmp k' k = 0
  · rw [if_pos h]
    have ha : a.find? (isKey c k) = none := by
      rw [List.find?_eq_none]
      intro e he
      have := hno' e (by simp [he])
      simp only [isKey, decide_eq_true_eq]
      exact fun hh => this (hc.key.eq_trans hh ((hc.key.eq_swap _ _).1 h))
    rw [ha]
    simp [isKey, h]
  · rw [if_neg h]
    simp [isKey, h]

theorem lookup_remove {c : Cfg K V} (hc : Lawful c) (s : List (Entry K V)) (k k' : K) :
    lookup c (s.filter fun e => decide (c.cmp e.1 k' ≠ 0)) k = if c.cmp k' k = 0 then none else lookup c s k := by
  rw [lookup_eq, lookup_eq, List.find?_filter]
  by_cases h : c.cmp k' k = 0
  · rw [if_pos h]
    have : s.find? (fun a => decide (decide (c.cmp a.1 k' ≠ 0) = true) && isKey c k a) = none := by
      rw [List.find?_eq_none]
      intro e _
      simp only [isKey, decide_eq_true_eq, Bool.and_eq_true, not_and]
      exact fun h1 h2 => h1 (hc.key.eq_trans h2 ((hc.key.eq_swap _ _).1 h))
    simpa using this
  · rw [if_neg h]
    congr 2
    funext e
    simp only [isKey]
    by_cases h2 : c.cmp e.1 k = 0
    · have : c.cmp e.1 k' ≠ 0 := fun h3 => h (hc.key.eq_trans ((hc.key.eq_swap _ _).1 h3) h2)
      simp [h2, this]
    · simp [h2]

theorem latest_spec {c : Cfg K V} (hc : Lawful c) (hsingle : c.multi = false) {ex} (ops : List (Op K V)) :
    ∀ {s s' : List (Entry K V)} {rs}, SpecRun c ex s ops rs s' →
    ∀ (cur : K → Option V), (∀ k, (lookup c s k) = (cur k).map fun v => [v]) →
    ∀ k, lookup c s' k = (latest c k ops (cur k)).map fun v => [v] := by
  induction ops with
  | nil => intro s s' rs h cur hcur k; cases h; exact hcur k
  | cons op ops ih =>
    intro s s' rs h cur hcur
    cases h with
    | @cons _ s1 _ _ _ r _ hs hr =>
      have same : s1 = s → (∀ k, latest c k (op :: ops) (cur k) = latest c k ops (cur k)) →
          ∀ k, lookup c s' k = (latest c k (op :: ops) (cur k)).map fun v => [v] := by
        intro he hl k
        subst he
        rw [hl k]
        exact ih hr cur hcur k
      cases op with
      | insert k' v =>
        have hstep : ∀ k, lookup c s1 k = ((if c.cmp k' k = 0 then some v else cur k)).map fun v => [v] := by
          intro k
          obtain ⟨_, hs⟩ := hs
          cases hl : lookup c s k' with
          | some old =>
            rw [hl] at hs
            obtain ⟨new, h1, h2⟩ := hs
            unfold Stored at h1
            rw [if_neg (by simp [hsingle])] at h1
            rw [h2, lookup_upd hc, h1]
            by_cases hk : c.cmp k' k = 0
            · rw [if_pos hk]
              cases hl2 : lookup c s k with
              | some _ => rw [Option.map_some, if_pos hk]; rfl
              | none =>
                exfalso
                have h4 := lookup_none.1 hl2
                rw [lookup_eq, Option.map_eq_some_iff] at hl
                obtain ⟨e, h5, _⟩ := hl
                exact h4 e (List.mem_of_find?_eq_some h5)
                  (hc.key.eq_trans (by simpa [isKey] using List.find?_some h5) hk)
            · rw [if_neg hk, hcur k]
              cases cur k with
              | none => rfl
              | some w => rw [Option.map_some, Option.map_some, if_neg hk]
          | none =>
            rw [hl] at hs
            dsimp only at hs
            split at hs
            · obtain ⟨a, b, h1, h2, _⟩ := hs
              subst h1
              rw [h2, lookup_insert_new hc hl, hcur k]
              split <;> rfl
            · rw [hs]
              have := lookup_insert_new hc (a := s) (b := []) (k := k) (k' := k') (vs := [v]) (by simpa using hl)
              rw [this, List.append_nil, hcur k]
              split <;> rfl
        intro k
        exact ih hr (fun k => if c.cmp k' k = 0 then some v else cur k) hstep k
      | remove k' =>
        intro k
        refine ih hr (fun k => if c.cmp k' k = 0 then none else cur k) ?_ k
        intro k
        rw [hs.2, lookup_remove hc, hcur k]
        split <;> rfl
      | get _ => exact same hs.1 (fun _ => rfl)
      | multiLen _ => exact same hs.1 (fun _ => rfl)
      | multiGet _ _ => exact same hs.1 (fun _ => rfl)
      | multiRemove _ _ =>
        simp only [Spec] at hs
        rw [if_neg (by simp [hsingle])] at hs
        exact same hs.2 (fun _ => rfl)
      | numKeys => exact same hs.1 (fun _ => rfl)
      | enumerate => exact same hs.1 (fun _ => rfl)

/-- C09: after any history on a single-value table, `get` returns exactly the value of the latest insert not followed by
a remove, and `num_keys` is the number of distinct live keys. -/
theorem hashtable_is_map {c : Cfg K V} (hc : Lawful c) (hsingle : c.multi = false) {size : Nat} (hs : size ≤ 2 ^ 63)
    {h : HT K V} (hcr : create c size = some h) (ops : List (Op K V)) :
    ∃ rs h', run c h ops = some (rs, h') ∧ (∀ k, get c h' k = some (latest c k ops none)) ∧
      ∃ live : List K, h'.numKeys = live.length ∧ live.Pairwise (fun a b => c.cmp a b ≠ 0) ∧
        ∀ k, (latest c k ops none).isSome ↔ ∃ x ∈ live, c.cmp x k = 0 := by
  obtain ⟨rs, h', s, h1, h2, h3⟩ := sim_run hc (ex := false) ops (by simp) (create_R _ hs hcr)
  have hl := latest_spec hc hsingle ops h2 (fun _ => none) (fun _ => rfl)
  refine ⟨rs, h', h1, ?_, s.map (·.1), by rw [h3.nkeys, List.length_map], ?_, ?_⟩
  · intro k
    have hk := hl k
    rw [lookup_eq] at hk
    unfold get
    rw [entry?_eq hc h3.holds]
    cases hf : s.find? (isKey c k) with
    | none =>
      rw [hf] at hk
      cases hla : latest c k ops none with
      | none => rfl
      | some v => rw [hla] at hk; cases hk
    | some e =>
      rw [hf] at hk
      cases hla : latest c k ops none with
      | none => rw [hla] at hk; cases hk
      | some v =>
        rw [hla] at hk
        simp only [Option.map_some, Option.some.injEq] at hk
        simp [hsingle, hk]
  · rw [List.pairwise_map]; exact h3.holds.dist
  · intro k
    have hk := hl k
    have h5 : (latest c k ops none).isSome = (lookup c s k).isSome := by rw [hk]; simp
    rw [h5]
    constructor
    · intro hsome
      rw [lookup_eq, Option.isSome_map] at hsome
      obtain ⟨e, he⟩ := Option.isSome_iff_exists.1 hsome
      exact ⟨e.1, List.mem_map.2 ⟨e, List.mem_of_find?_eq_some he, rfl⟩, by simpa [isKey] using List.find?_some he⟩
    · rintro ⟨x, hx, hxk⟩
      obtain ⟨e, he, rfl⟩ := List.mem_map.1 hx
      cases hlk : lookup c s k with
      | some _ => rfl
      | none => exact absurd hxk (lookup_none.1 hlk e he)

/-- Keys 0-99 all hashing to their last digit parity, a table of one bucket growing by rehashing. -/
def exCfg : Cfg Nat Nat :=
  { cmp := natCmp, hash := fun k => k % 2, vcmp := natCmp, multi := false, multiSorted := false, getLast := false,
    ordered := false, keysSorted := false, fillpct := 75 }

example : Lawful exCfg ∧ ((create exCfg 1).bind fun h => (run exCfg h
      [.insert 1 10, .insert 3 30, .insert 5 50, .insert 3 31, .remove 1, .get 3, .get 1, .numKeys, .enumerate]).map
        fun x => (x.1.drop 5, x.2.size)) =
    some ([.val (some 31), .val none, .num 2, .listing 2 [(3, some 31), (5, some 50)]], 8) :=
  ⟨⟨natCmp_lawful, fun a b h => by
    have h' : (a : Int) - b = 0 := h
    have : a = b := by omega
    subst this; rfl, fun _ => natCmp_lawful⟩, by decide +kernel⟩

def exMulti : Cfg Nat Nat := { exCfg with multi := true, ordered := true }

example : ((create exMulti 1).bind fun h => (run exMulti h
      [.insert 1 10, .insert 3 30, .insert 1 11, .multiLen 1, .multiGet 1 1, .multiRemove 1 0, .enumerate]).map
        fun x => x.1.drop 3) =
    some [.len (some 2), .val (some 11), .bool true, .listing 3 [(1, some 11), (3, some 30)]] := by decide +kernel

/-- C10 is violated by the number an enumeration announces: `M_hashtable_multi_remove`
(`base/hash/m_hashtable.c:683-688`) does not decrement `num_values`.  After inserting two values for a key and removing
one, `M_hashtable_enumerate` announces 2 values and yields 1. -/
theorem announced_count_fails :
    ((create exMulti 8).bind fun h => (run exMulti h
      [.insert 1 10, .insert 1 11, .multiRemove 1 0, .enumerate]).map fun x => x.1.drop 3) =
    some [.listing 2 [(1, some 11)]] := by decide +kernel

/-! ### C54: merge and duplicate -/

theorem insertAll_spec {c : Cfg K V} (hc : Lawful c) {ex} (l : List (K × V)) : ∀ {h : HT K V} {s}, R c ex h s →
    ∃ h' s', insertAll c (l.map fun p => (p.1, some p.2)) h = some h' ∧ R c ex h' s' ∧
      SpecRun c ex s (l.map fun p => .insert p.1 p.2) (l.map fun _ => .bool true) s' := by
  induction l with
  | nil => intro h s hr; exact ⟨h, s, rfl, hr, .nil s⟩
  | cons p l ih =>
    intro h s hr
    obtain ⟨h1, s1, k1, k2, k3⟩ := sim_insert hc hr p.1 p.2
    obtain ⟨h2, s2, k4, k5, k6⟩ := ih k3
    exact ⟨h2, s2, by simp only [List.map_cons, insertAll, k1]; exact k4, k5, .cons k2 k6⟩

/-- The pairs of a table. -/
def kvs (s : List (Entry K V)) : List (K × V) := s.flatMap fun e => e.2.map fun v => (e.1, v)

theorem allPairs_kvs (s : List (Entry K V)) : allPairs s = (kvs s).map fun p => (p.1, some p.2) := by
  simp [allPairs, kvs, List.map_flatMap, Function.comp_def]


theorem enumerate_entries {c : Cfg K V} (hc : Lawful c) {ex} {h : HT K V} {s} (hr : R c ex h s) :
    ∃ t, t.Perm s ∧ (c.ordered = true → t = s) ∧
      ∀ fuel, total s < fuel → enumerate c h fuel = some (h.numValues, (kvs t).map fun p => (p.1, some p.2)) := by
  have hlen := allPairs_length s
  cases ho : c.ordered with
  | true =>
    refine ⟨s, List.Perm.refl _, fun _ => rfl, fun fuel hf => ?_⟩
    obtain ⟨l, h1, _, h3⟩ := enumerate_spec hc hr fuel hf
    rw [h1, h3 ho, allPairs_kvs]
  | false =>
    refine ⟨h.buckets.flatten, hr.holds.perm, by simp, fun fuel hf => ?_⟩
    have hrem : remU h { hash := 0, chainid := 0, valueidx := 0 } = h.buckets.flatten.flatMap pairs := by
      unfold remU
      simp only [List.drop_zero]
      cases h.buckets with
      | nil => rfl
      | cons b bs => simp
    have hp : (h.buckets.flatten.flatMap pairs).Perm (allPairs s) := hr.holds.perm.flatMap_right _
    unfold enumerate
    rw [if_neg (by simp [ho]), enumAllU_spec hr fuel _ (Or.inl rfl) (by rw [hrem, hp.length_eq]; omega), hrem,
      ← allPairs_eq, allPairs_kvs]
    rfl

theorem get_R {c : Cfg K V} (hc : Lawful c) {ex} {h : HT K V} {s} (hr : R c ex h s) (k : K) :
    get c h k = some ((lookup c s k).bind fun vs => if c.multi && c.getLast then vs.getLast? else vs.head?) := by
  obtain ⟨r, h', s', h1, h2, _⟩ := sim_step hc hr (.get k) (by simp [Op.isMultiRemove])
  simp only [step, Option.map_eq_some_iff] at h1
  obtain ⟨v, hv, he⟩ := h1
  cases he
  rw [hv]
  have := h2.2
  cases this
  rfl

theorem kvs_length (s : List (Entry K V)) : (kvs s).length = total s := by
  rw [← allPairs_length, allPairs_kvs, List.length_map]

theorem kvs_perm {s t : List (Entry K V)} (p : s.Perm t) : (kvs s).Perm (kvs t) := p.flatMap_right _

/-- C54, merge: merging a table reached by any history into another one amounts to inserting every pair of the source,
in some order (the source's own order if its keys are ordered). -/
theorem merge_correct {c c' : Cfg K V} (hc : Lawful c) (hc' : Lawful c') {n n' : Nat} (hn : n ≤ 2 ^ 63) (hn' : n' ≤ 2 ^ 63)
    {h h' : HT K V} (hcr : create c n = some h) (hcr' : create c' n' = some h') (ops ops' : List (Op K V)) :
    ∃ rs d rs' src s s', run c h ops = some (rs, d) ∧ SpecRun c false [] ops rs s ∧
      run c' h' ops' = some (rs', src) ∧ SpecRun c' false [] ops' rs' s' ∧
      ∃ m order sm, (∀ fuel, (kvs s').length < fuel → merge c c' d src fuel = some m) ∧ order.Perm (kvs s') ∧
        (c'.ordered = true → order = kvs s') ∧
        SpecRun c false s (order.map fun p => .insert p.1 p.2) (order.map fun _ => .bool true) sm ∧
        (∀ k, get c m k = some ((lookup c sm k).bind fun vs => if c.multi && c.getLast then vs.getLast? else vs.head?)) ∧
        m.numKeys = sm.length := by
  obtain ⟨rs, d, s, h1, h2, h3⟩ := sim_run hc (ex := false) ops (by simp) (create_R _ hn hcr)
  obtain ⟨rs', src, s', h1', h2', h3'⟩ := sim_run hc' (ex := false) ops' (by simp) (create_R _ hn' hcr')
  refine ⟨rs, d, rs', src, s, s', h1, h2, h1', h2', ?_⟩
  obtain ⟨t, ht1, ht2, ht3⟩ := enumerate_entries hc' h3'
  obtain ⟨m, sm, k1, k2, k3⟩ := insertAll_spec hc (kvs t) h3
  refine ⟨m, kvs t, sm, fun fuel hf => ?_, kvs_perm ht1, fun ho => by rw [ht2 ho], k3, get_R hc k2, k2.nkeys⟩
  rw [kvs_length] at hf
  unfold merge
  split
  · rw [ht3 fuel hf]; exact k1
  · rename_i hz
    have h0 : total s' = 0 := by have := h3'.enough; omega
    have : kvs t = [] := by
      rw [← List.length_eq_zero_iff, (kvs_perm ht1).length_eq, kvs_length, h0]
    rw [this] at k1
    exact k1

/-- The values a list of pairs has for `k`. -/
def valsOf (c : Cfg K V) (k : K) (l : List (K × V)) : List V := (l.filter fun p => decide (c.cmp p.1 k = 0)).map (·.2)

theorem insertRun_lookup {c : Cfg K V} (hc : Lawful c) (hms : c.multiSorted = false) {ex} (k : K) (l : List (K × V)) :
    ∀ {s s' rs}, SpecRun c ex s (l.map fun p => .insert p.1 p.2) rs s' →
      (∀ e ∈ s, e.2 ≠ []) →
      (c.multi = true ∨ ((lookup c s k).getD []).length + (valsOf c k l).length ≤ 1) →
      lookup c s' k = (if (lookup c s k).getD [] ++ valsOf c k l = [] then none
        else some ((lookup c s k).getD [] ++ valsOf c k l)) := by
  induction l with
  | nil =>
    intro s s' rs hrun hne _
    cases hrun
    simp only [valsOf, List.filter_nil, List.map_nil, List.append_nil]
    cases hl : lookup c s k with
    | none => simp
    | some vs =>
      rw [lookup_eq, Option.map_eq_some_iff] at hl
      obtain ⟨e, he, rfl⟩ := hl
      have := hne e (List.mem_of_find?_eq_some he)
      simp [this]
  | cons p l ih =>
    intro s s' rs hrun hne hlen
    cases hrun with
    | @cons _ s1 _ _ _ r _ hs hr =>
      obtain ⟨k', v⟩ := p
      obtain ⟨_, hs⟩ := hs
      have key : (∀ e ∈ s1, e.2 ≠ []) ∧ lookup c s1 k = (if c.cmp k' k = 0 then
          some (if c.multi then (lookup c s k).getD [] ++ [v] else [v]) else lookup c s k) := by
        cases hl : lookup c s k' with
        | some old =>
          rw [hl] at hs
          obtain ⟨new, h1, h2⟩ := hs
          unfold Stored at h1
          simp only [hms, Bool.false_eq_true, if_false] at h1
          have hnew : new ≠ [] := by
            by_cases hm : c.multi = true <;> simp_all
          refine ⟨?_, ?_⟩
          · rw [h2]
            intro e he
            obtain ⟨e', he', rfl⟩ := List.mem_map.1 he
            split
            · exact hnew
            · exact hne e' he'
          · rw [h2, lookup_upd hc]
            by_cases hk : c.cmp k' k = 0
            · rw [if_pos hk]
              have : lookup c s k = some old := by
                rw [← hl, lookup_eq, lookup_eq]
                congr 2
                funext e
                simp only [isKey]
                congr 1
                exact propext ⟨fun h => hc.key.eq_trans h ((hc.key.eq_swap _ _).1 hk), fun h => hc.key.eq_trans h hk⟩
              rw [this, Option.map_some, if_pos hk, Option.getD_some]
              congr 1
              split at h1 <;> simp_all
            · rw [if_neg hk]
              cases lookup c s k with
              | none => rfl
              | some w => rw [Option.map_some, if_neg hk]
        | none =>
          rw [hl] at hs
          dsimp only at hs
          have hkn : c.cmp k' k = 0 → lookup c s k = none := by
            intro hk
            have h4 := lookup_none.1 hl
            exact lookup_none.2 fun e he hh => h4 e he (hc.key.eq_trans hh ((hc.key.eq_swap _ _).1 hk))
          have fin : (if c.cmp k' k = 0 then some [v] else lookup c s k) = (if c.cmp k' k = 0 then
              some (if c.multi then (lookup c s k).getD [] ++ [v] else [v]) else lookup c s k) := by
            split
            · rename_i hk
              rw [hkn hk]; simp
            · rfl
          split at hs
          · obtain ⟨a, b, h1, h2, _⟩ := hs
            subst h1
            refine ⟨?_, by rw [h2, lookup_insert_new hc hl, fin]⟩
            rw [h2]
            intro e he
            simp only [List.mem_append, List.mem_cons] at he
            rcases he with he | rfl | he
            · exact hne e (by simp [he])
            · simp
            · exact hne e (by simp [he])
          · rw [hs]
            have := lookup_insert_new hc (a := s) (b := []) (k := k) (k' := k') (vs := [v]) (by simpa using hl)
            refine ⟨?_, by rw [this, List.append_nil, fin]⟩
            intro e he
            simp only [List.mem_append, List.mem_singleton] at he
            rcases he with he | rfl
            · exact hne e he
            · simp
      by_cases hk : c.cmp k' k = 0
      · have hv : valsOf c k ((k', v) :: l) = v :: valsOf c k l := by simp [valsOf, hk]
        rw [hv] at hlen ⊢
        have h1 : lookup c s1 k = some ((lookup c s k).getD [] ++ [v]) := by
          rw [key.2, if_pos hk]
          congr 1
          split
          · rfl
          · rename_i hm
            rcases hlen with hlen | hlen
            · exact absurd hlen hm
            · have : (lookup c s k).getD [] = [] := by
                rw [← List.length_eq_zero_iff]; simp only [List.length_cons] at hlen; omega
              rw [this]; rfl
        have := ih hr key.1 (by
          rcases hlen with hlen | hlen
          · exact Or.inl hlen
          · right; rw [h1]; simp only [List.length_cons, Option.getD_some, List.length_append, List.length_nil] at *; omega)
        rw [this, h1]
        simp
      · have hv : valsOf c k ((k', v) :: l) = valsOf c k l := by simp [valsOf, hk]
        rw [hv] at hlen ⊢
        have h1 : lookup c s1 k = lookup c s k := by rw [key.2, if_neg hk]
        have := ih hr key.1 (by rw [h1]; exact hlen)
        rw [this, h1]

theorem valsOf_kvs {c : Cfg K V} (hc : Lawful c) (k : K) (s : List (Entry K V)) (hd : Distinct c s) :
    valsOf c k (kvs s) = (lookup c s k).getD [] := by
  induction s with
  | nil => rfl
  | cons e s ih =>
    have hd' := List.pairwise_cons.1 hd
    have happ : valsOf c k (kvs (e :: s)) = (if c.cmp e.1 k = 0 then e.2 else []) ++ valsOf c k (kvs s) := by
      simp only [valsOf, kvs, List.flatMap_cons, List.filter_append, List.map_append]
      congr 1
      by_cases h : c.cmp e.1 k = 0
      · rw [if_pos h, List.filter_eq_self.2 (by simp [h])]
        rw [List.map_map]; exact List.map_id _
      · rw [if_neg h, List.filter_eq_nil_iff.2 (by simp [h])]; rfl
    rw [happ, ih hd'.2, lookup_eq, lookup_eq, List.find?_cons]
    by_cases h : c.cmp e.1 k = 0
    · have : s.find? (isKey c k) = none := by
        rw [List.find?_eq_none]
        intro x hx
        simp only [isKey, decide_eq_true_eq]
        exact fun hh => hd'.1 x hx (hc.key.eq_trans h ((hc.key.eq_swap _ _).1 hh))
      simp [isKey, h, this]
    · simp [isKey, h]

/-- C54, duplicate: the copy of a table reached by any history has the same values, in the same order, for every key,
and serves every later call accordingly (for tables whose value lists are not themselves sorted). -/
theorem duplicate_correct {c : Cfg K V} (hc : Lawful c) (hms : c.multiSorted = false) {n : Nat} (hn : n ≤ 2 ^ 63)
    {h : HT K V} (hcr : create c n = some h) (ops : List (Op K V)) :
    ∃ rs src s, run c h ops = some (rs, src) ∧ SpecRun c false [] ops rs s ∧
      ∃ d s', (∀ fuel, (kvs s).length < fuel → duplicate c src fuel = some d) ∧
        (∀ k, lookup c s' k = lookup c s k) ∧
        (∀ ops2, ∃ rs2 d2 s2, run c d ops2 = some (rs2, d2) ∧ SpecRun c false s' ops2 rs2 s2) := by
  obtain ⟨rs, src, s, h1, h2, h3⟩ := sim_run hc (ex := false) ops (by simp) (create_R _ hn hcr)
  refine ⟨rs, src, s, h1, h2, ?_⟩
  obtain ⟨t, ht1, ht2, ht3⟩ := enumerate_entries hc h3
  obtain ⟨e, he, he24⟩ := h3.holds.pow
  have hpos : 0 < src.size := by rw [he]; exact Nat.two_pow_pos e
  have hsz : src.size ≤ 2 ^ 63 := by
    rw [he]; exact Nat.pow_le_pow_right (by omega) (by omega)
  obtain ⟨d0, hd0⟩ : ∃ d0, create c src.size = some d0 := by
    unfold create at hcr ⊢
    split at hcr
    · cases hcr
    · rename_i hq
      rw [if_neg (by omega)]
      split at hcr
      · cases hcr
      · rename_i hq2
        rw [if_neg hq2]
        split at hcr
        · cases hcr
        · rename_i hq3
          rw [if_neg hq3]
          exact ⟨_, rfl⟩
  obtain ⟨d, s', k1, k2, k3⟩ := insertAll_spec hc (kvs t) (create_R false hsz hd0)
  refine ⟨d, s', fun fuel hf => ?_, fun k => ?_, fun ops2 => ?_⟩
  · rw [kvs_length] at hf
    unfold duplicate
    rw [hd0, Option.bind_some]
    split
    · rw [ht3 fuel hf]; exact k1
    · rename_i hz
      have h0 : total s = 0 := by have := h3.enough; omega
      have : kvs t = [] := by
        rw [← List.length_eq_zero_iff, (kvs_perm ht1).length_eq, kvs_length, h0]
      rw [this] at k1
      exact k1
  · have hdt : Distinct c t := h3.holds.dist.perm hc ht1.symm
    have hv := valsOf_kvs hc k t hdt
    have hlk : lookup c t k = lookup c s k := by
      rw [lookup_eq, lookup_eq, find?_perm hc hdt ht1]
    have hs0 : lookup c ([] : List (Entry K V)) k = none := rfl
    have := insertRun_lookup hc hms k (kvs t) k3 (by simp) (by
      rw [hs0, hv, hlk]
      cases hm : c.multi with
      | true => exact Or.inl rfl
      | false =>
        right
        cases hl : lookup c s k with
        | none => simp
        | some vs =>
          rw [lookup_eq, Option.map_eq_some_iff] at hl
          obtain ⟨e, he, rfl⟩ := hl
          have := h3.single hm e (List.mem_of_find?_eq_some he)
          simp [this])
    rw [this, hs0, hv, hlk]
    cases hl : lookup c s k with
    | none => simp
    | some vs =>
      rw [lookup_eq, Option.map_eq_some_iff] at hl
      obtain ⟨e, he, rfl⟩ := hl
      have := h3.nonempty e (List.mem_of_find?_eq_some he)
      simp [this]
  · obtain ⟨rs2, d2, s2, j1, j2, _⟩ := sim_run hc (ex := false) ops2 (by simp) k2
    exact ⟨rs2, d2, s2, j1, j2⟩

example : ((create exMulti 1).bind fun h => (run exMulti h [.insert 1 10, .insert 3 30, .insert 1 11]).bind fun x =>
      (duplicate exMulti x.2 5).bind fun d => (run exMulti d [.multiGet 1 1, .numKeys, .enumerate]).map (·.1)) =
    some [.val (some 11), .num 2, .listing 3 [(1, some 10), (1, some 11), (3, some 30)]] := by decide +kernel

end Verif.Hash
