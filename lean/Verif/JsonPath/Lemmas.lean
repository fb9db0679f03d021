import Verif.JsonPath.Model
import Verif.JsonPath.Spec

/-!
# Lemmas about searching JSON: numbers, items, offsets
-/

namespace Verif.JsonPath

open Verif.Json (Json)

/-! ## Numbers -/

theorem digit_val {c : UInt8} (h : 48 ≤ c ∧ c ≤ 57) : Num.digitVal c < 10 := by
  have H : ∀ n : Fin 256, 48 ≤ UInt8.ofNat n.val ∧ UInt8.ofNat n.val ≤ 57 →
      Num.digitVal (UInt8.ofNat n.val) < 10 := by decide +kernel
  have := H ⟨c.toNat, c.toNat_lt⟩
  simp only [UInt8.ofNat_toNat] at this
  exact this h

theorem digit_plain {c : UInt8} (h : 48 ≤ c ∧ c ≤ 57) :
    Chr.isSpace c = false ∧ c ≠ 45 ∧ c ≠ 43 ∧ Chr.toLower c ≠ 120 ∧ c ≠ 0 ∧ c ≠ 44 ∧ c ≠ 46 ∧
      c ≠ 58 ∧ c ≠ 91 := by
  have H : ∀ n : Fin 256, 48 ≤ UInt8.ofNat n.val ∧ UInt8.ofNat n.val ≤ 57 →
      Chr.isSpace (UInt8.ofNat n.val) = false ∧ UInt8.ofNat n.val ≠ 45 ∧ UInt8.ofNat n.val ≠ 43 ∧
      Chr.toLower (UInt8.ofNat n.val) ≠ 120 ∧ UInt8.ofNat n.val ≠ 0 ∧ UInt8.ofNat n.val ≠ 44 ∧
      UInt8.ofNat n.val ≠ 46 ∧ UInt8.ofNat n.val ≠ 58 ∧ UInt8.ofNat n.val ≠ 91 := by decide +kernel
  have := H ⟨c.toNat, c.toNat_lt⟩
  simp only [UInt8.ofNat_toNat] at this
  exact this h

theorem NumText.ne {t : List UInt8} {v : Int} (h : NumText t v) : t ≠ [] := by
  obtain ⟨_, ⟨⟨h, _⟩, _⟩ | ⟨ds, rfl, _⟩⟩ := h
  · exact h
  · simp

theorem NumText.clean {t : List UInt8} {v : Int} (h : NumText t v) :
    (0 : UInt8) ∉ t ∧ (44 : UInt8) ∉ t ∧ (46 : UInt8) ∉ t ∧ (58 : UInt8) ∉ t ∧ (91 : UInt8) ∉ t := by
  have key : ∀ c ∈ t, c = 45 ∨ (48 ≤ c ∧ c ≤ 57) := by
    obtain ⟨_, ⟨⟨_, h⟩, _⟩ | ⟨ds, rfl, ⟨_, h⟩, _⟩⟩ := h
    · exact fun c hc => .inr (h c hc)
    · intro c hc
      rcases List.mem_cons.mp hc with rfl | hc
      · exact .inl rfl
      · exact .inr (h c hc)
  refine ⟨?_, ?_, ?_, ?_, ?_⟩ <;> (intro hc; rcases key _ hc with h | h <;> revert h <;> decide)

theorem readNum_text {t : List UInt8} {v : Int} (h : NumText t v) : readNum t = some v := by
  have hne := h.ne
  have hcl := h.clean
  obtain ⟨⟨hlo, hhi⟩, h⟩ := h
  have : ∃ neg ds, Num.Parsed 10 t neg ds [] ∧ Digits ds ∧ v = Num.signed neg (Num.value 10 ds) := by
    rcases h with ⟨hd, hv⟩ | ⟨ds, rfl, hd, hv⟩
    · refine ⟨false, t, ⟨⟨[], [], by simp, by simp, .inr (.inr ⟨rfl, rfl, ?_⟩)⟩, ?_, by simp⟩, hd, by
        rw [hv]; rfl⟩
      · intro c hc
        rw [List.append_nil] at hc
        have := digit_plain (hd.2 c (List.mem_of_mem_head? hc))
        exact ⟨this.1, this.2.1, this.2.2.1⟩
      · exact fun c hc => digit_val (hd.2 c hc)
    · refine ⟨true, ds, ⟨⟨[], [45], by simp, by simp, .inl ⟨rfl, rfl⟩⟩, ?_, by simp⟩, hd, by
        rw [hv]; rfl⟩
      exact fun c hc => digit_val (hd.2 c hc)
  obtain ⟨neg, ds, hp, hd, hv⟩ := this
  have hc : Num.Call (t ++ [0]) t.length t [0] :=
    ⟨rfl, hcl.1, ⟨t, [], rfl, hcl.1, by simp⟩, by
      intro h0; exact hne (List.length_eq_zero_iff.mp h0)⟩
  have hx : (ds ++ []).map Chr.toLower ≠ [48, 120] := by
    intro he
    have h120 : (120 : UInt8) ∈ (ds ++ []).map Chr.toLower := by rw [he]; simp
    rw [List.append_nil] at h120
    obtain ⟨c, hc, hc'⟩ := List.mem_map.mp h120
    exact (digit_plain (hd.2 c hc)).2.2.2.1 hc'
  have hval : Num.value 10 ds < 2 ^ 64 := by
    unfold Num.signed at hv
    have : (2 : Nat) ^ 64 = 18446744073709551616 := by decide
    rw [this]
    cases neg
    · simp at hv; omega
    · simp at hv; omega
  obtain ⟨rv, v', h1, h2, _⟩ := Num.int32_exact_partial hc (by decide) hp hx hval
  have e31 : (2 : Int) ^ 31 = 2147483648 := by decide
  rw [e31, ← hv] at h2
  obtain ⟨rfl, rfl⟩ := h2 ⟨by omega, by omega⟩
  unfold readNum
  rw [h1, if_neg hd.1]

/-- The place an index stands for. -/
theorem offsetVal_text {t : List UInt8} {v : Int} (h : NumText t v) (n : Nat) (hn : -(n : Int) ≤ v) :
    offsetVal t n = some (bound n v) := by
  unfold offsetVal bound
  rw [readNum_text h]
  simp only
  split
  · rw [if_neg (by omega)]
  · rfl

theorem optVal_text {t : List UInt8} {o : Option Int} (h : OptText t o) (n d : Nat)
    (hn : ∀ v, o = some v → -(n : Int) ≤ v) :
    optVal t n d = some ((o.map (bound n)).getD d) := by
  unfold optVal
  cases o with
  | none =>
    obtain rfl : t = [] := h
    rfl
  | some v =>
    have hne := NumText.ne h
    rw [if_pos (List.length_pos_iff.mpr hne), offsetVal_text h n (hn v rfl)]
    rfl

theorem stepVal_text {t : List UInt8} {o : Option Int} (h : OptText t o) (h0 : o ≠ some 0) :
    stepVal (some t) = some (o.getD 1) := by
  unfold stepVal
  cases o with
  | none =>
    obtain rfl : t = [] := h
    rfl
  | some v =>
    have hne := NumText.ne h
    simp only
    rw [if_pos (List.length_pos_iff.mpr hne), readNum_text h]
    simp only
    rw [if_neg (fun hv => h0 (by rw [hv]))]
    rfl

/-! ## Counting -/

/-- Two ascending lists with the same members are equal. -/
theorem asc_ext : ∀ {a b : List Nat}, a.Pairwise (· < ·) → b.Pairwise (· < ·) →
    (∀ x, x ∈ a ↔ x ∈ b) → a = b
  | [], [], _, _, _ => rfl
  | [], y :: b, _, _, h => absurd ((h y).mpr (by simp)) (by simp)
  | x :: a, [], _, _, h => absurd ((h x).mp (by simp)) (by simp)
  | x :: a, y :: b, ha, hb, h => by
    rw [List.pairwise_cons] at ha hb
    have hxy : x = y := by
      rcases List.mem_cons.mp ((h x).mp (by simp)) with h1 | h1
      · exact h1
      · rcases List.mem_cons.mp ((h y).mpr (by simp)) with h2 | h2
        · exact h2.symm
        · have := ha.1 y h2
          have := hb.1 x h1
          omega
    subst hxy
    rw [asc_ext ha.2 hb.2 fun z => ?_]
    constructor
    · intro hz
      rcases List.mem_cons.mp ((h z).mp (List.mem_cons_of_mem _ hz)) with rfl | h1
      · exact absurd (ha.1 z hz) (by omega)
      · exact h1
    · intro hz
      rcases List.mem_cons.mp ((h z).mpr (List.mem_cons_of_mem _ hz)) with rfl | h1
      · exact absurd (hb.1 z hz) (by omega)
      · exact h1

theorem up_mem (n e k : Nat) (hk : 0 < k) : ∀ f j, e ≤ j + f →
    (up n e k f j).Pairwise (· < ·) ∧
      ∀ x, x ∈ up n e k f j ↔ j ≤ x ∧ x < e ∧ x < n ∧ (x - j) % k = 0
  | 0, j, h => by
    refine ⟨List.Pairwise.nil, fun x => ?_⟩
    simp [up]
    omega
  | f + 1, j, h => by
    unfold up
    by_cases hj : j < e
    · rw [if_pos hj]
      obtain ⟨h1, h2⟩ := up_mem n e k hk f (j + k) (by omega)
      constructor
      · rw [List.pairwise_append]
        refine ⟨by split <;> simp, h1, fun a ha b hb => ?_⟩
        have ha' : a = j := by
          split at ha <;> simp at ha
          exact ha
        have := (h2 b).mp hb
        omega
      · intro x
        rw [List.mem_append, h2]
        constructor
        · rintro (hx | ⟨h3, h4, h5, h6⟩)
          · split at hx <;> simp at hx
            subst hx
            exact ⟨Nat.le_refl _, hj, by assumption, by simp⟩
          · refine ⟨by omega, h4, h5, ?_⟩
            have : x - j = (x - (j + k)) + k := by omega
            rw [this, Nat.add_mod_right]
            exact h6
        · rintro ⟨h3, h4, h5, h6⟩
          by_cases hx : x = j
          · subst hx
            left
            rw [if_pos h5]
            simp
          · right
            have hge : j + k ≤ x := by
              rcases Nat.lt_or_ge (x - j) k with hlt | hge
              · rw [Nat.mod_eq_of_lt hlt] at h6
                omega
              · omega
            refine ⟨hge, h4, h5, ?_⟩
            have : x - j = (x - (j + k)) + k := by omega
            rw [this, Nat.add_mod_right] at h6
            exact h6
    · rw [if_neg hj]
      refine ⟨List.Pairwise.nil, fun x => ?_⟩
      simp
      omega

theorem down_mem (n e k : Nat) (hk : 0 < k) : ∀ (f : Nat) (j : Int), -1 ≤ j → j < (e : Int) + (f : Int) →
    (down n e k f j).Pairwise (· > ·) ∧
      ∀ x : Nat, x ∈ down n e k f j ↔ (x : Int) ≤ j ∧ e ≤ x ∧ x < n ∧ (j.toNat - x) % k = 0
  | 0, j, hj1, h => by
    refine ⟨List.Pairwise.nil, fun x => ?_⟩
    simp only [down, List.not_mem_nil, false_iff]
    omega
  | f + 1, j, hj1, h => by
    unfold down
    by_cases hj : (e : Int) ≤ j
    · rw [if_pos hj]
      by_cases hjk : -1 ≤ j - k
      · obtain ⟨h1, h2⟩ := down_mem n e k hk f (j - k) hjk (by omega)
        constructor
        · rw [List.pairwise_append]
          refine ⟨by split <;> simp, h1, fun a ha b hb => ?_⟩
          have ha' : a = j.toNat := by
            split at ha <;> simp at ha
            exact ha
          have := (h2 b).mp hb
          omega
        · intro x
          rw [List.mem_append, h2]
          constructor
          · rintro (hx | ⟨h3, h4, h5, h6⟩)
            · split at hx <;> simp at hx
              subst hx
              rename_i hh
              refine ⟨by omega, by omega, by omega, by simp⟩
            · refine ⟨by omega, h4, h5, ?_⟩
              have : j.toNat - x = ((j - k).toNat - x) + k := by omega
              rw [this, Nat.add_mod_right]
              exact h6
          · rintro ⟨h3, h4, h5, h6⟩
            by_cases hx : x = j.toNat
            · subst hx
              left
              rw [if_pos ⟨by omega, by omega⟩]
              simp
            · right
              have hge : (x : Int) ≤ j - k := by
                rcases Nat.lt_or_ge (j.toNat - x) k with hlt | hge
                · rw [Nat.mod_eq_of_lt hlt] at h6
                  omega
                · omega
              refine ⟨hge, h4, h5, ?_⟩
              have : j.toNat - x = ((j - k).toNat - x) + k := by omega
              rw [this, Nat.add_mod_right] at h6
              exact h6
      · have hnil : down n e k f (j - k) = [] := by
          cases f with
          | zero => rfl
          | succ f => unfold down; rw [if_neg (by omega)]
        rw [hnil, List.append_nil]
        refine ⟨by split <;> simp, fun x => ?_⟩
        constructor
        · intro hx
          split at hx <;> simp at hx
          subst hx
          rename_i hh
          exact ⟨by omega, by omega, by omega, by simp⟩
        · rintro ⟨h3, h4, h5, h6⟩
          have hlt : j.toNat - x < k := by omega
          rw [Nat.mod_eq_of_lt hlt] at h6
          have : x = j.toNat := by omega
          subst this
          rw [if_pos ⟨by omega, by omega⟩]
          simp
    · rw [if_neg hj]
      refine ⟨List.Pairwise.nil, fun x => ?_⟩
      simp only [List.not_mem_nil, false_iff]
      omega

theorem range_asc (n : Nat) : (List.range n).Pairwise (· < ·) := List.pairwise_lt_range

/-- The offsets of a slice. -/
theorem slice_eq (n s e : Nat) (k : Int) (hk : k ≠ 0) :
    slice n s e k =
      if 0 < k then (List.range n).filter fun i => s ≤ i ∧ i < e ∧ (i - s) % k.toNat = 0
      else ((List.range n).filter fun i => e ≤ i ∧ i < s ∧ (s - 1 - i) % (-k).toNat = 0).reverse := by
  unfold slice
  by_cases hpos : 0 < k
  · rw [if_pos hpos]
    by_cases hse : s < e
    · rw [if_neg (by omega), if_pos hse]
      obtain ⟨h1, h2⟩ := up_mem n e k.toNat (by omega) e s (by omega)
      refine asc_ext h1 ((range_asc n).filter _) fun x => ?_
      rw [h2, List.mem_filter, List.mem_range, decide_eq_true_iff]
      constructor
      · rintro ⟨a, b, c, d⟩; exact ⟨c, a, b, d⟩
      · rintro ⟨c, a, b, d⟩; exact ⟨a, b, c, d⟩
    · rw [if_pos (by omega)]
      symm
      rw [List.filter_eq_nil_iff]
      intro x _
      simp only [decide_eq_true_iff]
      omega
  · rw [if_neg hpos]
    by_cases hes : e < s
    · rw [if_neg (by omega), if_neg (by omega)]
      obtain ⟨h1, h2⟩ := down_mem n e (-k).toNat (by omega) s ((s : Int) - 1) (by omega) (by omega)
      rw [← List.reverse_reverse (down n e (-k).toNat s ((s : Int) - 1))]
      congr 1
      refine asc_ext (List.pairwise_reverse.mpr h1) ((range_asc n).filter _) fun x => ?_
      rw [List.mem_reverse, h2, List.mem_filter, List.mem_range, decide_eq_true_iff]
      have : ((s : Int) - 1).toNat = s - 1 := by omega
      rw [this]
      constructor
      · rintro ⟨a, b, c, d⟩; exact ⟨c, b, by omega, d⟩
      · rintro ⟨c, a, b, d⟩; exact ⟨by omega, a, c, d⟩
    · rw [if_pos (by omega)]
      symm
      rw [List.reverse_eq_nil_iff, List.filter_eq_nil_iff]
      intro x _
      simp only [decide_eq_true_iff]
      omega

/-! ## Items -/

theorem OptText.clean {t : List UInt8} {o : Option Int} (h : OptText t o) :
    (0 : UInt8) ∉ t ∧ (44 : UInt8) ∉ t ∧ (46 : UInt8) ∉ t ∧ (58 : UInt8) ∉ t ∧ (91 : UInt8) ∉ t := by
  cases o with
  | none => obtain rfl : t = [] := h; simp
  | some v => exact NumText.clean h

theorem ItemText.ne {i : Item} {t : List UInt8} (h : ItemText i t) : t ≠ [] := by
  cases h with
  | idx h => exact h.ne
  | slice2 => simp
  | slice3 => simp

theorem ItemText.clean {i : Item} {t : List UInt8} (h : ItemText i t) :
    (0 : UInt8) ∉ t ∧ (44 : UInt8) ∉ t ∧ (46 : UInt8) ∉ t ∧ (91 : UInt8) ∉ t := by
  cases h with
  | idx h => exact ⟨h.clean.1, h.clean.2.1, h.clean.2.2.1, h.clean.2.2.2.2⟩
  | slice2 h1 h2 =>
    have a := h1.clean
    have b := h2.clean
    simp only [List.mem_append, List.mem_cons, not_or]
    exact ⟨⟨a.1, by decide, b.1⟩, ⟨a.2.1, by decide, b.2.1⟩, ⟨a.2.2.1, by decide, b.2.2.1⟩,
      ⟨a.2.2.2.2, by decide, b.2.2.2.2⟩⟩
  | slice3 h1 h2 h3 =>
    have a := h1.clean
    have b := h2.clean
    have c := h3.clean
    simp only [List.mem_append, List.mem_cons, not_or]
    exact ⟨⟨a.1, by decide, b.1, by decide, c.1⟩, ⟨a.2.1, by decide, b.2.1, by decide, c.2.1⟩,
      ⟨a.2.2.1, by decide, b.2.2.1, by decide, c.2.2.1⟩,
      ⟨a.2.2.2.2, by decide, b.2.2.2.2, by decide, c.2.2.2.2⟩⟩

/-- Can one item be used in an array of `n` elements? -/
def ItemFits (n : Nat) : Item → Prop
  | .idx v => -(n : Int) ≤ v
  | .slice a b _ => (∀ v, a = some v → -(n : Int) ≤ v) ∧ ∀ v, b = some v → -(n : Int) ≤ v

theorem part_text {i : Item} {t : List UInt8} (h : ItemText i t) (n : Nat) (hf : ItemFits n i) :
    part n t = .offs (indices n i) := by
  have hcl := h.clean
  unfold part
  cases h with
  | @idx t v h =>
    have e := Str.explode_join 58 [t] (by simpa using h.clean.2.2.2.1) (by simpa [Str.join] using h.clean.1)
      (by simpa [Str.join] using h.ne)
    simp only [Str.join] at e
    rw [e]
    simp only
    rw [offsetVal_text h n hf]
    simp only [bound, indices]
    have hf' : -(n : Int) ≤ v := hf
    split
    · rw [if_pos (by omega), if_pos (by omega)]
    · rfl
  | @slice2 ta tb a b h1 h2 =>
    have e := Str.explode_join 58 [ta, tb]
      (by
        intro x hx
        simp only [List.mem_cons, List.not_mem_nil, or_false] at hx
        rcases hx with rfl | rfl
        · exact h1.clean.2.2.2.1
        · exact h2.clean.2.2.2.1)
      (by simpa [Str.join] using hcl.1) (by simp [Str.join])
    simp only [Str.join, List.append_assoc, List.singleton_append] at e
    rw [e]
    simp only [slicePart]
    rw [optVal_text h1 n 0 hf.1, optVal_text h2 n n hf.2]
    simp only [stepVal]
    rw [slice_eq _ _ _ _ (by decide)]
    rfl
  | @slice3 ta tb tc a b c h1 h2 h3 h4 =>
    have e := Str.explode_join 58 [ta, tb, tc]
      (by
        intro x hx
        simp only [List.mem_cons, List.not_mem_nil, or_false] at hx
        rcases hx with rfl | rfl | rfl
        · exact h1.clean.2.2.2.1
        · exact h2.clean.2.2.2.1
        · exact h3.clean.2.2.2.1)
      (by simpa [Str.join] using hcl.1) (by simp [Str.join])
    simp only [Str.join, List.append_assoc, List.singleton_append] at e
    rw [e]
    simp only [slicePart]
    rw [optVal_text h1 n 0 hf.1, optVal_text h2 n n hf.2, stepVal_text h3 h4]
    simp only
    rw [slice_eq _ _ _ _ ?_]
    · rfl
    · cases c with
      | none => decide
      | some c => exact fun hc => h4 (by rw [show c = 0 from hc])

theorem parts_text {l : List Item} {ts : List (List UInt8)} (h : ItemTexts l ts) (n : Nat)
    (hf : ∀ i ∈ l, ItemFits n i) : parts n ts = some (l.flatMap (indices n)) := by
  induction h with
  | nil => rfl
  | cons h1 h2 ih =>
    unfold parts
    rw [part_text h1 n (hf _ (by simp)), ih fun i hi => hf i (List.mem_cons_of_mem _ hi)]
    rfl

theorem ItemTexts.ne {l : List Item} {ts : List (List UInt8)} (h : ItemTexts l ts) (hl : l ≠ []) :
    ts ≠ [] ∧ ∀ t ∈ ts, t ≠ [] ∧ (0 : UInt8) ∉ t ∧ (44 : UInt8) ∉ t ∧ (46 : UInt8) ∉ t ∧
      (91 : UInt8) ∉ t := by
  have key : ∀ t ∈ ts, t ≠ [] ∧ (0 : UInt8) ∉ t ∧ (44 : UInt8) ∉ t ∧ (46 : UInt8) ∉ t ∧
      (91 : UInt8) ∉ t := by
    clear hl
    induction h with
    | nil => intro t ht; cases ht
    | cons h1 h2 ih =>
      intro t ht
      rcases List.mem_cons.mp ht with rfl | ht
      · exact ⟨h1.ne, h1.clean⟩
      · exact ih t ht
  cases h with
  | nil => exact absurd rfl hl
  | cons => exact ⟨by simp, key⟩

theorem join_mem (d c : UInt8) : ∀ ts : List (List UInt8), c ∈ Str.join [d] ts → c = d ∨ ∃ t ∈ ts, c ∈ t
  | [], h => by simp [Str.join] at h
  | [t], h => .inr ⟨t, by simp, by simpa [Str.join] using h⟩
  | t :: u :: ts, h => by
    rw [Str.join_cons _ _ (by simp)] at h
    simp only [List.mem_append, List.mem_singleton] at h
    rcases h with (h | h) | h
    · exact .inr ⟨t, by simp, h⟩
    · exact .inl h
    · rcases join_mem d c (u :: ts) h with h | ⟨x, hx, hc⟩
      · exact .inl h
      · exact .inr ⟨x, List.mem_cons_of_mem _ hx, hc⟩

theorem join_ne (d : UInt8) {ts : List (List UInt8)} (h : ts ≠ []) (h' : ∀ t ∈ ts, t ≠ []) :
    Str.join [d] ts ≠ [] := by
  cases ts with
  | nil => exact absurd rfl h
  | cons t ts =>
    cases ts with
    | nil => simpa [Str.join] using h'
    | cons u ts => rw [Str.join_cons _ _ (by simp)]; simp

/-- The offsets of a list of items. -/
theorem offsets_text {l : List Item} {ts : List (List UInt8)} (h : ItemTexts l ts) (hl : l ≠ []) (n : Nat)
    (hf : Fits n l) : offsets n (91 :: (Str.join [44] ts ++ [93])) = l.flatMap (indices n) := by
  obtain ⟨hne, hts⟩ := h.ne hl
  have hj := join_ne 44 hne fun t ht => (hts t ht).1
  have hjl := List.length_pos_iff.mpr hj
  unfold offsets
  by_cases hn : n = 0
  · rw [if_pos (.inl hn)]
    subst hn
    symm
    rw [List.flatMap_eq_nil_iff]
    intro i _
    cases i with
    | idx v =>
      simp only [indices]
      split
      · rw [if_neg (by omega)]
      · rw [if_neg (by omega)]
    | slice a b c => simp only [indices]; split <;> rfl
  · rw [if_neg (by simp; omega)]
    have ed : ((91 :: (Str.join [44] ts ++ [93])).drop 1).take
        ((91 :: (Str.join [44] ts ++ [93])).length - 2) = Str.join [44] ts := by
      simp
    rw [ed, Str.explode_join 44 ts (fun t ht => (hts t ht).2.2.1) ?_ hj]
    · simp only
      by_cases hall : ∀ i ∈ l, ItemFits n i
      · rw [parts_text h n hall]
        rfl
      · have hex : ∃ v, l = [.idx v] ∧ v < -(n : Int) := by
          have : ∃ i, i ∈ l ∧ ¬ ItemFits n i := by
            apply Classical.byContradiction
            intro hc
            exact hall fun i hi => Classical.byContradiction fun h' => hc ⟨i, hi, h'⟩
          obtain ⟨i, hi, hni⟩ := this
          cases i with
          | idx v =>
            rcases hf.1 v hi with h1 | h1
            · obtain ⟨y, rfl⟩ := List.length_eq_one_iff.mp h1
              simp only [List.mem_singleton] at hi
              exact ⟨v, by rw [hi], by unfold ItemFits at hni; omega⟩
            · exact absurd h1 hni
          | slice a b c => exact absurd (hf.2 a b c hi) hni
        obtain ⟨v, rfl, hv⟩ := hex
        cases h with
        | @cons _ t _ ts h1 h2 =>
          cases h2 with
          | nil =>
            cases h1 with
            | idx h1 =>
              have e := Str.explode_join 58 [t] (by simpa using h1.clean.2.2.2.1)
                (by simpa [Str.join] using h1.clean.1) (by simpa [Str.join] using h1.ne)
              simp only [Str.join] at e
              have : part n t = .error := by
                unfold part
                rw [e]
                simp only
                unfold offsetVal
                rw [readNum_text h1]
                simp only
                rw [if_pos (by omega), if_pos (by omega)]
              unfold parts
              rw [this]
              simp only [Option.getD_none, List.flatMap_cons, List.flatMap_nil, List.append_nil]
              simp only [indices]
              rw [if_pos (by omega), if_neg (by omega)]
    · intro hc
      rcases join_mem 44 0 ts hc with h0 | ⟨t, ht, h0⟩
      · exact absurd h0 (by decide)
      · exact (hts t ht).2.1 h0

end Verif.JsonPath
