import Verif.Qsort.Model
/- Helper lemmas for the quick sort model. -/
namespace Verif.Qsort

variable {α : Type _} {cmp : α → α → Int}

/-- Every element stored at an index in `[lo, hi)` satisfies `P`. -/
def Rng (a : Array α) (lo hi : Nat) (P : α → Prop) : Prop :=
  ∀ i x, lo ≤ i → i < hi → a[i]? = some x → P x

/-- The segment `[lo, hi)` is sorted. -/
def SegSorted (cmp : α → α → Int) (a : Array α) (lo hi : Nat) : Prop :=
  ∀ i j x y, lo ≤ i → i < j → j < hi → a[i]? = some x → a[j]? = some y → cmp x y ≤ 0

/-- `a'` is obtained from `a` by rearranging elements of the segment `[lo, hi)`. -/
structure Eff (lo hi : Nat) (a a' : Array α) : Prop where
  size : a'.size = a.size
  perm : a'.Perm a
  out : ∀ i, i < lo ∨ hi ≤ i → a'[i]? = a[i]?
  inn : ∀ P, Rng a lo hi P → Rng a' lo hi P

theorem Eff.refl (lo hi : Nat) (a : Array α) : Eff lo hi a a :=
  ⟨rfl, Array.Perm.refl _, fun _ _ => rfl, fun _ h => h⟩

theorem Eff.trans {lo hi : Nat} {a b c : Array α} (h1 : Eff lo hi a b) (h2 : Eff lo hi b c) : Eff lo hi a c :=
  ⟨h2.size.trans h1.size, h2.perm.trans h1.perm, fun i hi => (h2.out i hi).trans (h1.out i hi),
    fun P h => h2.inn P (h1.inn P h)⟩

theorem Eff.mono {lo hi lo' hi' : Nat} {a b : Array α} (h : Eff lo hi a b) (h1 : lo' ≤ lo) (h2 : hi ≤ hi') :
    Eff lo' hi' a b where
  size := h.size
  perm := h.perm
  out i hi := h.out i (by omega)
  inn P hP := by
    intro i x h3 h4 hx
    by_cases hin : lo ≤ i ∧ i < hi
    · exact h.inn P (fun j y h5 h6 => hP j y (by omega) (by omega)) i x hin.1 hin.2 hx
    · rw [h.out i (by omega)] at hx
      exact hP i x h3 h4 hx

theorem swap?_eq {a : Array α} {i j : Nat} (hi : i < a.size) (hj : j < a.size) :
    ∃ a', swap? a i j = some a' ∧ a'.size = a.size ∧ a'.Perm a ∧
      ∀ k, a'[k]? = if j = k then a[i]? else if i = k then a[j]? else a[k]? := by
  refine ⟨a.swap i j hi hj, by simp [swap?, hi, hj], by simp, Array.swap_perm _ _, fun k => ?_⟩
  rw [Array.getElem?_swap, Array.getElem?_eq_getElem hi, Array.getElem?_eq_getElem hj]

theorem Eff.of_swap {lo hi : Nat} {a a' : Array α} {i j : Nat} (hs : a'.size = a.size) (hp : a'.Perm a)
    (hk : ∀ k, a'[k]? = if j = k then a[i]? else if i = k then a[j]? else a[k]?)
    (h1 : lo ≤ i) (h2 : i < hi) (h3 : lo ≤ j) (h4 : j < hi) : Eff lo hi a a' where
  size := hs
  perm := hp
  out k hk' := by rw [hk, if_neg (by omega), if_neg (by omega)]
  inn P hP := by
    intro k x h5 h6 hx
    rw [hk] at hx
    split at hx
    · exact hP _ _ h1 h2 hx
    · split at hx
      · exact hP _ _ h3 h4 hx
      · exact hP _ _ h5 h6 hx

theorem cmpAt_eq {a : Array α} {i j : Nat} (hi : i < a.size) (hj : j < a.size) :
    cmpAt cmp a i j = some (cmp a[i] a[j]) := by
  simp [cmpAt, hi, hj]

/-! ### Block exchange -/

theorem swapMultiple_spec (n : Nat) : ∀ (a : Array α) (p q : Nat), p + n ≤ q → q + n ≤ a.size →
    ∃ a', swapMultiple a p q n = some a' ∧ Eff p (q + n) a a' ∧
      (∀ k, p ≤ k → k < p + n → a'[k]? = a[q + (k - p)]?) ∧
      (∀ k, q ≤ k → k < q + n → a'[k]? = a[p + (k - q)]?) ∧
      (∀ k, p + n ≤ k → k < q → a'[k]? = a[k]?) := by
  induction n with
  | zero =>
    intro a p q _ _
    exact ⟨a, rfl, Eff.refl _ _ _, by omega, by omega, fun _ _ _ => rfl⟩
  | succ n ih =>
    intro a p q h1 h2
    obtain ⟨b, hb, hs, hp, hk⟩ := swap?_eq (a := a) (i := p) (j := q) (by omega) (by omega)
    obtain ⟨c, hc, he, hc1, hc2, hc3⟩ := ih b (p + 1) (q + 1) (by omega) (by omega)
    refine ⟨c, by simp [swapMultiple, hb, hc], ?_, ?_, ?_, ?_⟩
    · exact (Eff.of_swap hs hp hk (by omega) (by omega) (by omega) (by omega)).trans
        (he.mono (by omega) (by omega))
    · intro k hk1 hk2
      by_cases hkp : k = p
      · subst hkp
        rw [he.out k (by omega), hk, if_neg (by omega), if_pos rfl]; simp
      · rw [hc1 k (by omega) (by omega), hk, if_neg (by omega), if_neg (by omega)]
        congr 1; omega
    · intro k hk1 hk2
      by_cases hkq : k = q
      · subst hkq
        by_cases h0 : n = 0
        · subst h0
          simp [swapMultiple] at hc
          subst hc
          rw [hk, if_pos rfl]; simp
        · by_cases hpk : p + 1 + n ≤ k ∧ k < k + 1
          · rw [hc3 k (by omega) (by omega), hk, if_pos rfl]; simp
          · omega
      · rw [hc2 k (by omega) (by omega), hk, if_neg (by omega), if_neg (by omega)]
        congr 1; omega
    · intro k hk1 hk2
      rw [hc3 k (by omega) (by omega), hk, if_neg (by omega), if_neg (by omega)]

/-! ### Insertion sort -/

theorem insertDown_spec (hc : LawfulCmp cmp) (base i : Nat) (k : Nat) : ∀ (a : Array α), k ≤ i →
    base + i < a.size →
    (∀ j1 j2 x y, base ≤ j1 → j1 < j2 → j2 ≤ base + i → j1 ≠ base + k → j2 ≠ base + k →
      a[j1]? = some x → a[j2]? = some y → cmp x y ≤ 0) →
    (∀ j x y, base + k < j → j ≤ base + i → a[base + k]? = some x → a[j]? = some y → cmp x y ≤ 0) →
    ∃ a', insertDown cmp a base k = some a' ∧ Eff base (base + i + 1) a a' ∧
      SegSorted cmp a' base (base + i + 1) := by
  induction k with
  | zero =>
    intro a hki hsz h1 h2
    refine ⟨a, rfl, Eff.refl _ _ _, ?_⟩
    intro p q x y hp hpq hq hx hy
    by_cases hp0 : p = base
    · subst hp0; exact h2 q x y (by omega) (by omega) hx hy
    · exact h1 p q x y hp hpq (by omega) (by omega) (by omega) hx hy
  | succ k ih =>
    intro a hki hsz h1 h2
    have ek : base + (k + 1) = base + k + 1 := by omega
    rw [ek] at h1 h2
    have hA : base + k < a.size := by omega
    have hB : base + k + 1 < a.size := by omega
    unfold insertDown
    rw [cmpAt_eq hA hB]
    by_cases hgt : cmp a[base + k] a[base + k + 1] > 0
    · obtain ⟨b, hb, hs, hp, hk⟩ := swap?_eq (a := a) (i := base + k + 1) (j := base + k) (by omega) (by omega)
      have hk0 : b[base + k]? = some a[base + k + 1] := by
        rw [hk, if_pos rfl, Array.getElem?_eq_getElem hB]
      have hk1 : b[base + k + 1]? = some a[base + k] := by
        rw [hk, if_neg (by omega), if_pos rfl, Array.getElem?_eq_getElem hA]
      have hko : ∀ j, j ≠ base + k → j ≠ base + k + 1 → b[j]? = a[j]? := by
        intro j h3 h4
        rw [hk, if_neg (by omega), if_neg (by omega)]
      obtain ⟨c, hcc, he, hs'⟩ := ih b (by omega) (by omega) (by
        intro j1 j2 x y hb1 hlt hb2 hn1 hn2 hx hy
        by_cases e1 : j1 = base + k + 1
        · subst e1
          rw [hk1] at hx; injection hx with hx; subst hx
          rw [hko _ hn2 (by omega)] at hy
          exact h1 (base + k) j2 _ _ (by omega) (by omega) hb2 (by omega) (by omega)
            (Array.getElem?_eq_getElem hA) hy
        · rw [hko _ hn1 e1] at hx
          by_cases e2 : j2 = base + k + 1
          · subst e2
            rw [hk1] at hy; injection hy with hy; subst hy
            exact h1 j1 (base + k) _ _ hb1 (by omega) (by omega) (by omega) (by omega) hx
              (Array.getElem?_eq_getElem hA)
          · rw [hko _ hn2 e2] at hy
            exact h1 j1 j2 _ _ hb1 hlt hb2 e1 e2 hx hy) (by
        intro j x y h3 h4 hx hy
        rw [hk0] at hx; injection hx with hx; subst hx
        by_cases e1 : j = base + k + 1
        · subst e1
          rw [hk1] at hy; injection hy with hy; subst hy
          have := (hc.lt_swap a[base + k + 1] a[base + k]).2 hgt
          omega
        · rw [hko _ (by omega) e1] at hy
          exact h2 j _ _ (by omega) h4 (Array.getElem?_eq_getElem hB) hy)
      refine ⟨c, by simp [hgt, hb, hcc], ?_, hs'⟩
      exact (Eff.of_swap hs hp hk (by omega) (by omega) (by omega) (by omega)).trans he
    · refine ⟨a, by simp [hgt], Eff.refl _ _ _, ?_⟩
      intro p q x y hp hpq hq hx hy
      have hle : cmp a[base + k] a[base + k + 1] ≤ 0 := by omega
      by_cases e1 : p = base + k + 1
      · subst e1; exact h2 q x y hpq (by omega) hx hy
      by_cases e2 : q = base + k + 1
      · subst e2
        rw [Array.getElem?_eq_getElem hB] at hy; injection hy with hy; subst hy
        by_cases e3 : p = base + k
        · subst e3
          rw [Array.getElem?_eq_getElem hA] at hx; injection hx with hx; subst hx
          exact hle
        · exact hc.trans _ _ _ (h1 p (base + k) x _ hp (by omega) (by omega) (by omega) (by omega) hx
            (Array.getElem?_eq_getElem hA)) hle
      · exact h1 p q x y hp hpq (by omega) e1 e2 hx hy

theorem insertLoop_spec (hc : LawfulCmp cmp) (a : Array α) (base n i : Nat) (hn : base + n ≤ a.size)
    (hi : 1 ≤ i) (hs : SegSorted cmp a base (base + min i n)) :
    ∃ a', insertLoop cmp a base n i = some a' ∧ Eff base (base + n) a a' ∧ SegSorted cmp a' base (base + n) := by
  induction hm : n - i generalizing a i with
  | zero =>
    unfold insertLoop
    rw [dif_neg (by omega)]
    refine ⟨a, rfl, Eff.refl _ _ _, ?_⟩
    rwa [Nat.min_eq_right (by omega)] at hs
  | succ m ih =>
    unfold insertLoop
    rw [dif_pos (by omega)]
    rw [Nat.min_eq_left (by omega)] at hs
    obtain ⟨b, hb, he, hs'⟩ := insertDown_spec hc base i i a (Nat.le_refl _) (by omega)
      (fun j1 j2 x y h1 h2 h3 h4 h5 hx hy => hs j1 j2 x y h1 h2 (by omega) hx hy)
      (fun j x y h1 h2 => by omega)
    obtain ⟨c, hcc, he', hs''⟩ := ih b (i + 1) (by rw [he.size]; exact hn) (by omega)
      (by rw [Nat.min_eq_left (by omega)]; exact hs') (by omega)
    exact ⟨c, by simp [hb, hcc], (he.mono (Nat.le_refl _) (by omega)).trans he', hs''⟩

theorem insertion_spec (hc : LawfulCmp cmp) (a : Array α) (base n : Nat) (hn : base + n ≤ a.size) :
    ∃ a', insertion cmp a base n = some a' ∧ Eff base (base + n) a a' ∧ SegSorted cmp a' base (base + n) := by
  refine insertLoop_spec hc a base n 1 hn (Nat.le_refl _) ?_
  intro i j x y h1 h2 h3
  have : min 1 n ≤ 1 := Nat.min_le_left _ _
  omega

/-! ### Pivot -/

theorem median_spec (a : Array α) (lo hi i j k : Nat) (hsz : hi ≤ a.size)
    (h1 : lo ≤ i ∧ i < hi) (h2 : lo ≤ j ∧ j < hi) (h3 : lo ≤ k ∧ k < hi) :
    ∃ m, median cmp a i j k = some m ∧ lo ≤ m ∧ m < hi := by
  unfold median
  rw [cmpAt_eq (by omega) (by omega), cmpAt_eq (by omega) (by omega), cmpAt_eq (by omega) (by omega)]
  simp only [Option.bind_eq_bind, Option.bind_some, Option.pure_def]
  repeat' split
  all_goals first
    | exact ⟨i, rfl, h1⟩
    | exact ⟨j, rfl, h2⟩
    | exact ⟨k, rfl, h3⟩

theorem choosePivot_spec (a : Array α) (base n : Nat) (hn : base + n ≤ a.size) (h0 : 0 < n) :
    ∃ m, choosePivot cmp a base n = some m ∧ base ≤ m ∧ m < base + n := by
  unfold choosePivot
  dsimp only
  split
  · split
    · obtain ⟨l, hl, hl1, hl2⟩ := median_spec (cmp := cmp) a base (base + n) base (base + n / 8)
        (base + 2 * (n / 8)) hn (by omega) (by omega) (by omega)
      obtain ⟨m, hm, hm1, hm2⟩ := median_spec (cmp := cmp) a base (base + n) (base + n / 2 - n / 8)
        (base + n / 2) (base + n / 2 + n / 8) hn (by omega) (by omega) (by omega)
      obtain ⟨r, hr, hr1, hr2⟩ := median_spec (cmp := cmp) a base (base + n) (base + (n - 1) - 2 * (n / 8))
        (base + (n - 1) - n / 8) (base + (n - 1)) hn (by omega) (by omega) (by omega)
      simp only [hl, hm, hr, Option.bind_eq_bind, Option.bind_some]
      exact median_spec a base (base + n) l m r hn ⟨hl1, hl2⟩ ⟨hm1, hm2⟩ ⟨hr1, hr2⟩
    · exact median_spec a base (base + n) base (base + n / 2) (base + (n - 1)) hn (by omega) (by omega) (by omega)
  · exact ⟨_, rfl, by omega, by omega⟩

/-! ### Partition -/

/-- Invariant of the partition loop; `p` is the pivot value, `e` one past the last element. -/
structure PInv (cmp : α → α → Int) (p : α) (base e : Nat) (a : Array α) (l1 l2 r1 r2 : Nat) : Prop where
  sz : e ≤ a.size
  piv : a[base]? = some p
  hl1 : base < l1
  hl2 : l1 ≤ l2
  hlr : l2 ≤ r1 + 1
  hr1 : r1 ≤ r2
  hr2 : r2 < e
  eqL : Rng a base l1 (fun x => cmp x p = 0)
  lt : Rng a l1 l2 (fun x => cmp x p < 0)
  gt : Rng a (r1 + 1) (r2 + 1) (fun x => cmp x p > 0)
  eqR : Rng a (r2 + 1) e (fun x => cmp x p = 0)

theorem scanLeft_spec (p : α) (base e r1 r2 : Nat) (a : Array α) (l1 l2 : Nat)
    (hI : PInv cmp p base e a l1 l2 r1 r2) :
    ∃ a' l1' l2', scanLeft cmp a base l1 l2 r1 = some (a', l1', l2') ∧ PInv cmp p base e a' l1' l2' r1 r2 ∧
      Eff base e a a' ∧ l2 ≤ l2' ∧
      (l2' ≤ r1 → ∃ x, a'[l2']? = some x ∧ cmp x p > 0) := by
  induction hm : r1 + 1 - l2 generalizing a l1 l2 with
  | zero =>
    unfold scanLeft
    rw [dif_neg (by omega)]
    exact ⟨a, l1, l2, rfl, hI, Eff.refl _ _ _, Nat.le_refl _, by omega⟩
  | succ m ih =>
    have hsz := hI.sz; have hl1 := hI.hl1; have hl2 := hI.hl2; have hr1 := hI.hr1; have hr2 := hI.hr2
    have hb : base < a.size := by omega
    have h2 : l2 < a.size := by omega
    have hbv : a[base] = p := by
      have := hI.piv; rw [Array.getElem?_eq_getElem hb] at this; injection this
    unfold scanLeft
    rw [dif_pos (by omega), cmpAt_eq h2 hb, hbv]
    dsimp only
    by_cases hle : cmp a[l2] p ≤ 0
    · rw [if_pos hle]
      by_cases h0 : cmp a[l2] p = 0
      · rw [if_pos h0]
        obtain ⟨b, hbb, hs, hp, hk⟩ := swap?_eq (a := a) (i := l1) (j := l2) (by omega) (by omega)
        have hI' : PInv cmp p base e b (l1 + 1) (l2 + 1) r1 r2 := by
          refine ⟨by omega, ?_, by omega, by omega, by omega, hr1, hr2, ?_, ?_, ?_, ?_⟩
          · rw [hk, if_neg (by omega), if_neg (by omega)]; exact hI.piv
          · intro i x h3 h4 hx
            rw [hk] at hx
            split at hx
            · have e1 : l1 = l2 := by omega
              subst e1
              rw [Array.getElem?_eq_getElem h2] at hx; injection hx with hx; subst hx; exact h0
            · split at hx
              · rw [Array.getElem?_eq_getElem h2] at hx; injection hx with hx; subst hx; exact h0
              · exact hI.eqL i x h3 (by omega) hx
          · intro i x h3 h4 hx
            rw [hk] at hx
            split at hx
            · exact hI.lt l1 x (by omega) (by omega) hx
            · rw [if_neg (by omega)] at hx
              exact hI.lt i x (by omega) (by omega) hx
          · intro i x h3 h4 hx
            rw [hk, if_neg (by omega), if_neg (by omega)] at hx
            exact hI.gt i x h3 h4 hx
          · intro i x h3 h4 hx
            rw [hk, if_neg (by omega), if_neg (by omega)] at hx
            exact hI.eqR i x h3 h4 hx
        obtain ⟨c, l1', l2', hcc, hI'', he, hle', hend⟩ := ih b (l1 + 1) (l2 + 1) hI' (by omega)
        refine ⟨c, l1', l2', by simp [hbb, hcc], hI'', ?_, by omega, hend⟩
        exact (Eff.of_swap hs hp hk (by omega) (by omega) (by omega) (by omega)).trans he
      · rw [if_neg h0]
        have hI' : PInv cmp p base e a l1 (l2 + 1) r1 r2 := by
          refine ⟨hsz, hI.piv, hl1, by omega, by omega, hr1, hr2, hI.eqL, ?_, hI.gt, hI.eqR⟩
          intro i x h3 h4 hx
          by_cases e1 : i = l2
          · subst e1
            rw [Array.getElem?_eq_getElem h2] at hx; injection hx with hx; subst hx; omega
          · exact hI.lt i x h3 (by omega) hx
        obtain ⟨c, l1', l2', hcc, hI'', he, hle', hend⟩ := ih a l1 (l2 + 1) hI' (by omega)
        exact ⟨c, l1', l2', hcc, hI'', he, by omega, hend⟩
    · rw [if_neg hle]
      exact ⟨a, l1, l2, rfl, hI, Eff.refl _ _ _, Nat.le_refl _,
        fun _ => ⟨a[l2], Array.getElem?_eq_getElem h2, by omega⟩⟩

theorem scanRight_spec (p : α) (base e l1 l2 : Nat) (a : Array α) (r1 r2 : Nat)
    (hI : PInv cmp p base e a l1 l2 r1 r2) :
    ∃ a' r1' r2', scanRight cmp a base l2 r1 r2 = some (a', r1', r2') ∧ PInv cmp p base e a' l1 l2 r1' r2' ∧
      Eff base e a a' ∧ r1' ≤ r1 ∧ (l2 ≤ r1' → a'[l2]? = a[l2]?) ∧
      (l2 ≤ r1' → ∃ x, a'[r1']? = some x ∧ cmp x p < 0) := by
  induction hm : r1 + 1 - l2 generalizing a r1 r2 with
  | zero =>
    unfold scanRight
    rw [dif_neg (by omega)]
    exact ⟨a, r1, r2, rfl, hI, Eff.refl _ _ _, Nat.le_refl _, by omega, by omega⟩
  | succ m ih =>
    have hsz := hI.sz; have hl1 := hI.hl1; have hl2 := hI.hl2; have hr1 := hI.hr1; have hr2 := hI.hr2
    have hb : base < a.size := by omega
    have h2 : r1 < a.size := by omega
    have hbv : a[base] = p := by
      have := hI.piv; rw [Array.getElem?_eq_getElem hb] at this; injection this
    unfold scanRight
    rw [dif_pos (by omega), cmpAt_eq h2 hb, hbv]
    dsimp only
    by_cases hge : cmp a[r1] p ≥ 0
    · rw [if_pos hge, dif_neg (by omega)]
      by_cases h0 : cmp a[r1] p = 0
      · rw [if_pos h0]
        obtain ⟨b, hbb, hs, hp, hk⟩ := swap?_eq (a := a) (i := r1) (j := r2) (by omega) (by omega)
        have hI' : PInv cmp p base e b l1 l2 (r1 - 1) (r2 - 1) := by
          refine ⟨by omega, ?_, by omega, by omega, by omega, by omega, by omega, ?_, ?_, ?_, ?_⟩
          · rw [hk, if_neg (by omega), if_neg (by omega)]; exact hI.piv
          · intro i x h3 h4 hx
            rw [hk, if_neg (by omega), if_neg (by omega)] at hx
            exact hI.eqL i x h3 h4 hx
          · intro i x h3 h4 hx
            rw [hk, if_neg (by omega), if_neg (by omega)] at hx
            exact hI.lt i x h3 h4 hx
          · intro i x h3 h4 hx
            rw [hk, if_neg (by omega)] at hx
            split at hx
            · exact hI.gt r2 x (by omega) (by omega) hx
            · exact hI.gt i x (by omega) (by omega) hx
          · intro i x h3 h4 hx
            rw [hk] at hx
            split at hx
            · rw [Array.getElem?_eq_getElem h2] at hx; injection hx with hx; subst hx; exact h0
            · split at hx
              · have e1 : r1 = r2 := by omega
                omega
              · exact hI.eqR i x (by omega) h4 hx
        obtain ⟨c, r1', r2', hcc, hI'', he, hle', hun, hend⟩ := ih b (r1 - 1) (r2 - 1) hI' (by omega)
        refine ⟨c, r1', r2', by simp [hbb, hcc], hI'', ?_, by omega, ?_, hend⟩
        · exact (Eff.of_swap hs hp hk (by omega) (by omega) (by omega) (by omega)).trans he
        · intro h3
          rw [hun h3, hk, if_neg (by omega), if_neg (by omega)]
      · rw [if_neg h0]
        have hI' : PInv cmp p base e a l1 l2 (r1 - 1) r2 := by
          refine ⟨hsz, hI.piv, hl1, by omega, by omega, by omega, hr2, hI.eqL, hI.lt, ?_, hI.eqR⟩
          intro i x h3 h4 hx
          by_cases e1 : i = r1
          · subst e1
            rw [Array.getElem?_eq_getElem h2] at hx; injection hx with hx; subst hx; omega
          · exact hI.gt i x (by omega) (by omega) hx
        obtain ⟨c, r1', r2', hcc, hI'', he, hle', hun, hend⟩ := ih a (r1 - 1) r2 hI' (by omega)
        exact ⟨c, r1', r2', hcc, hI'', he, by omega, hun, hend⟩
    · rw [if_neg hge]
      exact ⟨a, r1, r2, rfl, hI, Eff.refl _ _ _, Nat.le_refl _, fun _ => rfl,
        fun _ => ⟨a[r1], Array.getElem?_eq_getElem h2, by omega⟩⟩

theorem partition_spec (p : α) (base e : Nat) (fuel : Nat) : ∀ (a : Array α) (l1 l2 r1 r2 : Nat),
    PInv cmp p base e a l1 l2 r1 r2 → r1 + 1 - l2 < fuel →
    ∃ a' l1' l2' r1' r2', partition cmp base fuel a l1 l2 r1 r2 = some (a', l1', l2', r1', r2') ∧
      PInv cmp p base e a' l1' l2' r1' r2' ∧ r1' + 1 = l2' ∧ Eff base e a a' := by
  induction fuel with
  | zero => intro a l1 l2 r1 r2 _ h; omega
  | succ fuel ih =>
    intro a l1 l2 r1 r2 hI hf
    obtain ⟨b, l1', l2', hb, hIb, heb, hll, hendb⟩ := scanLeft_spec p base e r1 r2 a l1 l2 hI
    obtain ⟨c, r1', r2', hcc, hIc, hec, hrr, hun, hendc⟩ := scanRight_spec p base e l1' l2' b r1 r2 hIb
    simp only [partition, hb, hcc]
    have hsz := hIc.sz; have hl1 := hIc.hl1; have hl2 := hIc.hl2; have hr1 := hIc.hr1; have hr2 := hIc.hr2
    have hlr := hIc.hlr
    by_cases hgt : l2' > r1'
    · rw [if_pos hgt]
      exact ⟨c, l1', l2', r1', r2', rfl, hIc, by omega, heb.trans hec⟩
    · rw [if_neg hgt, if_neg (by omega)]
      obtain ⟨x, hx, hxp⟩ := hendb (by omega)
      rw [← hun (by omega)] at hx
      obtain ⟨y, hy, hyp⟩ := hendc (by omega)
      have hne : l2' ≠ r1' := by
        intro he
        rw [he, hy] at hx; injection hx with hx; subst hx; omega
      obtain ⟨d, hd, hs, hp, hk⟩ := swap?_eq (a := c) (i := l2') (j := r1') (by omega) (by omega)
      rw [hd]
      have hId : PInv cmp p base e d l1' (l2' + 1) (r1' - 1) r2' := by
        refine ⟨by omega, ?_, by omega, by omega, by omega, by omega, by omega, ?_, ?_, ?_, ?_⟩
        · rw [hk, if_neg (by omega), if_neg (by omega)]; exact hIc.piv
        · intro i z h3 h4 hz
          rw [hk, if_neg (by omega), if_neg (by omega)] at hz
          exact hIc.eqL i z h3 h4 hz
        · intro i z h3 h4 hz
          rw [hk, if_neg (by omega)] at hz
          split at hz
          · rw [hy] at hz; injection hz with hz; subst hz; exact hyp
          · exact hIc.lt i z h3 (by omega) hz
        · intro i z h3 h4 hz
          rw [hk] at hz
          split at hz
          · rw [hx] at hz; injection hz with hz; subst hz; exact hxp
          · rw [if_neg (by omega)] at hz
            exact hIc.gt i z (by omega) h4 hz
        · intro i z h3 h4 hz
          rw [hk, if_neg (by omega), if_neg (by omega)] at hz
          exact hIc.eqR i z h3 h4 hz
      obtain ⟨f, l1'', l2'', r1'', r2'', hf', hIf, hlf, hef⟩ := ih d l1' (l2' + 1) (r1' - 1) r2' hId (by omega)
      refine ⟨f, l1'', l2'', r1'', r2'', hf', hIf, hlf, ?_⟩
      exact ((heb.trans hec).trans
        (Eff.of_swap hs hp hk (by omega) (by omega) (by omega) (by omega))).trans hef

theorem splitStep_spec (hc : LawfulCmp cmp) (a : Array α) (base n : Nat) (hn : base + n ≤ a.size) (h7 : 7 ≤ n) :
    ∃ a' l r p, splitStep cmp a base n = some (a', l, r) ∧ l < n ∧ r < n ∧ l + r < n ∧
      Eff base (base + n) a a' ∧
      Rng a' base (base + l) (fun x => cmp x p < 0) ∧
      Rng a' (base + l) (base + n - r) (fun x => cmp x p = 0) ∧
      Rng a' (base + n - r) (base + n) (fun x => cmp x p > 0) := by
  obtain ⟨m, hm, hm1, hm2⟩ := choosePivot_spec (cmp := cmp) a base n hn (by omega)
  obtain ⟨b, hb, hsb, hpb, hkb⟩ := swap?_eq (a := a) (i := base) (j := m) (by omega) (by omega)
  have heb := Eff.of_swap hsb hpb hkb (lo := base) (hi := base + n) (by omega) (by omega) (by omega) (by omega)
  have hbs : base < b.size := by omega
  have hI0 : PInv cmp b[base] base (base + n) b (base + 1) (base + 1) (base + (n - 1)) (base + (n - 1)) := by
    refine ⟨by omega, Array.getElem?_eq_getElem hbs, by omega, by omega, by omega, by omega, by omega,
      ?_, by intro i; omega, by intro i; omega, by intro i; omega⟩
    intro i x h1 h2 hx
    have : i = base := by omega
    subst this
    rw [Array.getElem?_eq_getElem hbs] at hx; injection hx with hx; subst hx
    exact hc.refl _
  obtain ⟨c, l1, l2, r1, r2, hcc, hI, hlr, hec⟩ :=
    partition_spec b[base] base (base + n) n b _ _ _ _ hI0 (by omega)
  generalize b[base] = p at hI
  have hsz := hI.sz; have hl1 := hI.hl1; have hl2 := hI.hl2; have hr1 := hI.hr1; have hr2 := hI.hr2
  have hs1 : min (l1 - base) (l2 - l1) ≤ l1 - base := Nat.min_le_left _ _
  have hs2 : min (l1 - base) (l2 - l1) ≤ l2 - l1 := Nat.min_le_right _ _
  have hs3 : min (l1 - base) (l2 - l1) = l1 - base ∨ min (l1 - base) (l2 - l1) = l2 - l1 := by omega
  generalize hsdef : min (l1 - base) (l2 - l1) = s at hs1 hs2 hs3
  obtain ⟨d, hd, hed, hd1, hd2, hd3⟩ := swapMultiple_spec s c base (l2 - s) (by omega) (by omega)
  have ht1 : min (r2 - r1) (base + n - (r2 + 1)) ≤ r2 - r1 := Nat.min_le_left _ _
  have ht2 : min (r2 - r1) (base + n - (r2 + 1)) ≤ base + n - (r2 + 1) := Nat.min_le_right _ _
  have ht3 : min (r2 - r1) (base + n - (r2 + 1)) = r2 - r1 ∨
    min (r2 - r1) (base + n - (r2 + 1)) = base + n - (r2 + 1) := by omega
  generalize htdef : min (r2 - r1) (base + n - (r2 + 1)) = t at ht1 ht2 ht3
  have hds := hed.size
  obtain ⟨f, hf, hef, hf1, hf2, hf3⟩ := swapMultiple_spec t d l2 (base + n - t) (by omega) (by omega)
  -- positions of the two stages
  have hdlow : ∀ k, k < l2 → f[k]? = d[k]? := fun k hk => hef.out k (by omega)
  have hdhigh : ∀ k, l2 ≤ k → d[k]? = c[k]? := fun k hk => hed.out k (by omega)
  have hdlt : ∀ k x, base ≤ k → k < base + (l2 - l1) → d[k]? = some x → cmp x p < 0 := by
    intro k x h1 h2 hx
    by_cases e1 : k < base + s
    · rw [hd1 k h1 e1] at hx
      exact hI.lt _ x (by omega) (by omega) hx
    · by_cases e2 : k < l2 - s
      · rw [hd3 k (by omega) e2] at hx
        exact hI.lt k x (by omega) (by omega) hx
      · rw [hd2 k (by omega) (by omega)] at hx
        omega
  have hdeq : ∀ k x, base + (l2 - l1) ≤ k → k < l2 → d[k]? = some x → cmp x p = 0 := by
    intro k x h1 h2 hx
    by_cases e1 : k < base + s
    · rw [hd1 k (by omega) e1] at hx
      omega
    · by_cases e2 : k < l2 - s
      · rw [hd3 k (by omega) e2] at hx
        exact hI.eqL k x (by omega) (by omega) hx
      · rw [hd2 k (by omega) (by omega)] at hx
        exact hI.eqL _ x (by omega) (by omega) hx
  refine ⟨f, l2 - l1, r2 - r1, p, ?_, by omega, by omega, by omega, ?_, ?_, ?_, ?_⟩
  · simp only [splitStep, hm, hb, hcc, hsdef, htdef, hd, hf]
  · refine ((heb.trans hec).trans (hed.mono (Nat.le_refl _) (by omega))).trans (hef.mono (by omega) (by omega))
  · intro k x h1 h2 hx
    rw [hdlow k (by omega)] at hx
    exact hdlt k x h1 h2 hx
  · intro k x h1 h2 hx
    by_cases e0 : k < l2
    · rw [hdlow k e0] at hx
      exact hdeq k x h1 e0 hx
    · by_cases e1 : k < l2 + t
      · rw [hf1 k (by omega) e1, hdhigh _ (by omega)] at hx
        exact hI.eqR _ x (by omega) (by omega) hx
      · by_cases e2 : k < base + n - t
        · rw [hf3 k (by omega) e2, hdhigh _ (by omega)] at hx
          exact hI.eqR _ x (by omega) (by omega) hx
        · omega
  · intro k x h1 h2 hx
    by_cases e1 : k < l2 + t
    · omega
    · by_cases e2 : k < base + n - t
      · rw [hf3 k (by omega) e2, hdhigh _ (by omega)] at hx
        exact hI.gt _ x (by omega) (by omega) hx
      · rw [hf2 k (by omega) (by omega), hdhigh _ (by omega)] at hx
        exact hI.gt _ x (by omega) (by omega) hx

theorem qsortF_spec (hc : LawfulCmp cmp) (fuel : Nat) : ∀ (a : Array α) (base n : Nat), base + n ≤ a.size →
    n < fuel →
    ∃ a', qsortF cmp fuel a base n = some a' ∧ Eff base (base + n) a a' ∧ SegSorted cmp a' base (base + n) := by
  induction fuel with
  | zero => intro a base n _ h; omega
  | succ fuel ih =>
    intro a base n hn hf
    unfold qsortF
    by_cases h7 : n < 7
    · rw [if_pos h7]; exact insertion_spec hc a base n hn
    rw [if_neg h7]
    obtain ⟨b, l, r, p, hb, hl, hr, hlr, heb, hlt, heq, hgt⟩ := splitStep_spec hc a base n hn (by omega)
    rw [hb]
    dsimp only
    have hbs := heb.size
    -- left part
    obtain ⟨c, hcc, hec, hsc⟩ : ∃ c, (if l > 1 then qsortF cmp fuel b base l else some b) = some c ∧
        Eff base (base + l) b c ∧ SegSorted cmp c base (base + l) := by
      by_cases h1 : l > 1
      · rw [if_pos h1]; exact ih b base l (by omega) (by omega)
      · rw [if_neg h1]
        exact ⟨b, rfl, Eff.refl _ _ _, by intro i j; omega⟩
    rw [hcc]
    dsimp only
    have hcs := hec.size
    obtain ⟨d, hd, hed, hsd⟩ : ∃ d, (if r > 1 then qsortF cmp fuel c (base + n - r) r else some c) = some d ∧
        Eff (base + n - r) (base + n) c d ∧ SegSorted cmp d (base + n - r) (base + n) := by
      by_cases h1 : r > 1
      · rw [if_pos h1]
        have := ih c (base + n - r) r (by omega) (by omega)
        rwa [show base + n - r + r = base + n by omega] at this
      · rw [if_neg h1]
        exact ⟨c, rfl, Eff.refl _ _ _, by intro i j; omega⟩
    refine ⟨d, hd, (heb.trans (hec.mono (Nat.le_refl _) (by omega))).trans (hed.mono (by omega) (Nat.le_refl _)), ?_⟩
    have hlt' : Rng d base (base + l) (fun x => cmp x p < 0) := by
      intro i x h1 h2 hx
      rw [hed.out i (by omega)] at hx
      exact hec.inn _ hlt i x h1 h2 hx
    have heq' : Rng d (base + l) (base + n - r) (fun x => cmp x p = 0) := by
      intro i x h1 h2 hx
      rw [hed.out i (by omega), hec.out i (by omega)] at hx
      exact heq i x h1 h2 hx
    have hgt' : Rng d (base + n - r) (base + n) (fun x => cmp x p > 0) := by
      refine hed.inn _ ?_
      intro i x h1 h2 hx
      rw [hec.out i (by omega)] at hx
      exact hgt i x h1 h2 hx
    have hle : ∀ {x y : α}, cmp x p ≤ 0 → 0 ≤ cmp y p → cmp x y ≤ 0 := fun h1 h2 =>
      hc.trans _ _ _ h1 ((hc.swap _ _).2 h2)
    intro i j x y h1 h2 h3 hx hy
    by_cases ei : i < base + l
    · by_cases ej : j < base + l
      · rw [hed.out i (by omega)] at hx
        rw [hed.out j (by omega)] at hy
        exact hsc i j x y h1 h2 ej hx hy
      · have := hlt' i x h1 ei hx
        by_cases ej' : j < base + n - r
        · have := heq' j y (by omega) ej' hy
          exact hle (by omega) (by omega)
        · have := hgt' j y (by omega) (by omega) hy
          exact hle (by omega) (by omega)
    · by_cases ei' : i < base + n - r
      · have := heq' i x (by omega) ei' hx
        by_cases ej' : j < base + n - r
        · have := heq' j y (by omega) ej' hy
          exact hle (by omega) (by omega)
        · have := hgt' j y (by omega) (by omega) hy
          exact hle (by omega) (by omega)
      · exact hsd i j x y (by omega) h2 h3 hx hy

end Verif.Qsort
