import Verif.Tls.Model
import Verif.Str.SplitProps
/-! C71: a certificate is accepted only for the hosts its names cover. -/
namespace Verif.Tls
open Verif.Str (Alike Same join eq eqMaxInt explode implode eq_iff eqMax_iff explode_correct explode_join parts_unique join_cons)

/-! ### Specification -/

/-- The host is one label (the code lets it be empty) in place of the star, followed by what follows the star in the name, apart from the case of letters. -/
def StarCovers (host name : List UInt8) : Prop :=
  ∃ rest label rest', name = 42 :: 46 :: rest ∧ host = label ++ 46 :: rest' ∧ (46 : UInt8) ∉ label ∧ Alike true rest' rest

/-- The base domain of a name: its last two labels, or three if the last label has two characters. -/
def Base (s b : List UInt8) : Prop :=
  ∃ (a xs : List (List UInt8)) (l : List UInt8), (∀ x ∈ a ++ xs, (46 : UInt8) ∉ x) ∧ join [46] (a ++ xs) = s ∧ join [46] xs = b ∧ xs.getLast? = some l ∧
    (a = [] ∧ xs.length ≤ (if l.length = 2 then 3 else 2) ∨ xs.length = if l.length = 2 then 3 else 2)

/-- `localhost`. -/
def localhost : List UInt8 := [108, 111, 99, 97, 108, 104, 111, 115, 116]

/-- The name covers the host. -/
def Covers (fl : Flags) (host name : List UInt8) : Prop :=
  host ≠ [] ∧ name ≠ [] ∧ (Alike true host name ∨ (fl.wildcard = true ∧ StarCovers host name) ∨
    (fl.fuzzy = true ∧ (Alike true host localhost ∨ ∃ a b, Base host a ∧ Base name b ∧ Alike true a b)))

/-! ### Lemmas -/

theorem Same.symm {ci : Bool} {x y : UInt8} (h : Same ci x y) : Same ci y x := by
  rcases h with h | ⟨h, h' | h'⟩
  · exact Or.inl h.symm
  · exact Or.inr ⟨h, Or.inr h'⟩
  · exact Or.inr ⟨h, Or.inl h'⟩

theorem Alike.symm {ci : Bool} {a b : List UInt8} (h : Alike ci a b) : Alike ci b a := by
  induction h with
  | nil => exact .nil
  | cons h _ ih => exact .cons (Same.symm h) ih

theorem alike_append {ci : Bool} {a b c d : List UInt8} (h : Alike ci a b) (h' : Alike ci c d) : Alike ci (a ++ c) (b ++ d) := by
  induction h with
  | nil => exact h'
  | cons h _ ih => exact .cons h ih

theorem alike_split {ci : Bool} {b c : List UInt8} : ∀ {a : List UInt8}, Alike ci a (b ++ c) → ∃ x y, a = x ++ y ∧ Alike ci x b ∧ Alike ci y c := by
  induction b with
  | nil => intro a h; exact ⟨[], a, rfl, .nil, h⟩
  | cons z b ih =>
    intro a h
    cases h with
    | cons hz h =>
      obtain ⟨x, y, rfl, h1, h2⟩ := ih h
      exact ⟨_ :: x, y, rfl, .cons hz h1, h2⟩

theorem same_dot {x : UInt8} (h : Same true x 46) : x = 46 := by
  rcases h with h | ⟨_, ⟨h1, h2, h3⟩ | ⟨h1, h2, h3⟩⟩
  · exact h
  · exfalso
    have : ∀ n : Fin 256, 65 ≤ UInt8.ofNat n.val → UInt8.ofNat n.val ≤ 90 → (46 : UInt8) ≠ UInt8.ofNat n.val + 32 := by decide +kernel
    have := this ⟨x.toNat, x.toNat_lt⟩
    simp only [UInt8.ofNat_toNat] at this
    exact this h1 h2 h3
  · exact absurd h1 (by decide)

theorem alike_dot {a b : List UInt8} (h : Alike true a b) (hb : (46 : UInt8) ∉ b) : (46 : UInt8) ∉ a := by
  induction h with
  | nil => simp
  | cons h _ ih =>
    simp only [List.mem_cons, not_or] at hb ⊢
    refine ⟨?_, ih hb.2⟩
    intro e
    subst e
    exact hb.1 (same_dot (Same.symm h)).symm

/-- Lists of the same length whose members are alike. -/
inductive AllAlike : List (List UInt8) → List (List UInt8) → Prop
  | nil : AllAlike [] []
  | cons {x y : List UInt8} {a b : List (List UInt8)} (h : Alike true x y) (t : AllAlike a b) : AllAlike (x :: a) (y :: b)

theorem AllAlike.length {a b : List (List UInt8)} (h : AllAlike a b) : a.length = b.length := by
  induction h with
  | nil => rfl
  | cons _ _ ih => simp [ih]

theorem AllAlike.join {a b : List (List UInt8)} (h : AllAlike a b) : Alike true (join [46] a) (join [46] b) := by
  induction h with
  | nil => exact .nil
  | cons h t ih =>
    cases t with
    | nil => exact h
    | cons h' t' =>
      rw [join_cons [46] _ (List.cons_ne_nil _ _), join_cons [46] _ (List.cons_ne_nil _ _)]
      exact alike_append (alike_append h (.cons (Or.inl rfl) .nil)) ih

theorem alike_join {xs : List (List UInt8)} (hx : ∀ x ∈ xs, (46 : UInt8) ∉ x) (hne : xs ≠ []) : ∀ {a : List UInt8}, Alike true a (join [46] xs) →
    ∃ ys, a = join [46] ys ∧ (∀ y ∈ ys, (46 : UInt8) ∉ y) ∧ AllAlike ys xs := by
  induction xs with
  | nil => exact absurd rfl hne
  | cons x xs ih =>
    intro a h
    by_cases hn : xs = []
    · subst hn
      exact ⟨[a], rfl, by simpa using alike_dot h (hx x (by simp)), .cons h .nil⟩
    · rw [join_cons _ _ hn] at h
      obtain ⟨p, q, rfl, h1, h2⟩ := alike_split h
      obtain ⟨u, v, rfl, h3, h4⟩ := alike_split h1
      obtain ⟨ys, rfl, h5, h6⟩ := ih (fun y hy => hx y (by simp [hy])) hn h2
      have hy : ys ≠ [] := by rintro rfl; cases h6; exact hn rfl
      cases h4 with
      | cons hd ht =>
        cases ht
        refine ⟨u :: ys, ?_, ?_, .cons h3 h6⟩
        · rw [join_cons _ _ hy, same_dot hd]
        · intro y hy'
          rcases List.mem_cons.1 hy' with rfl | hy'
          · exact alike_dot h3 (hx x (by simp))
          · exact h5 y hy'

/-- Every text has a split. -/
theorem split_exists (s : List UInt8) : ∃ xs, xs ≠ [] ∧ (∀ x ∈ xs, (46 : UInt8) ∉ x) ∧ join [46] xs = s := by
  obtain ⟨xs, _, h1, h2, h3, _⟩ := Str.explodeLoop_spec 46 (s.count 46 + 1) s [] [] (by simp) (by simp)
  exact ⟨xs, h2, h1, by simpa using h3⟩

theorem join_length_le {xs : List (List UInt8)} {x : List UInt8} (h : x ∈ xs) : x.length ≤ (join [46] xs).length := by
  induction xs with
  | nil => cases h
  | cons y ys ih =>
    by_cases hn : ys = []
    · subst hn
      simp only [List.mem_singleton] at h
      subst h
      exact Nat.le_refl _
    · rw [join_cons _ _ hn]
      simp only [List.length_append]
      rcases List.mem_cons.1 h with rfl | h
      · omega
      · have := ih h; omega

theorem partsLoop_spec (hp np : List (List UInt8)) (hh : ∀ x ∈ hp, x.length < Buf.W) (hn : ∀ x ∈ np, x.length < Buf.W) : ∀ k, k < hp.length → k < np.length →
    ∃ b, partsLoop hp np k = some b ∧ (b = true ↔ ∀ i, i < k → ∃ n h, np[i + 1]? = some n ∧ hp[i + 1]? = some h ∧ Alike true h n) := by
  intro k
  induction k with
  | zero => intro _ _; exact ⟨true, rfl, by simp⟩
  | succ k ih =>
    intro h1 h2
    obtain ⟨b, e, hb⟩ := ih (by omega) (by omega)
    unfold partsLoop
    rw [List.getElem?_eq_getElem h1, List.getElem?_eq_getElem h2]
    simp only [Option.bind_some]
    have key := eq_iff true np[k + 1] hp[k + 1] (hn _ (List.getElem_mem _)) (hh _ (List.getElem_mem _))
    by_cases h : eq true np[k + 1] hp[k + 1] = true
    · rw [if_neg (by simp [h]), e]
      refine ⟨b, rfl, hb.trans ⟨fun hi i hik => ?_, fun hi i hik => hi i (by omega)⟩⟩
      by_cases e : i = k
      · subst e
        exact ⟨_, _, List.getElem?_eq_getElem h2, List.getElem?_eq_getElem h1, Alike.symm (key.1 h)⟩
      · exact hi i (by omega)
    · rw [if_pos (by simpa using h)]
      refine ⟨false, rfl, ?_⟩
      simp only [Bool.false_eq_true, false_iff]
      intro hi
      obtain ⟨n, m, e1, e2, e3⟩ := hi k (by omega)
      rw [List.getElem?_eq_getElem h2] at e1
      rw [List.getElem?_eq_getElem h1] at e2
      cases e1
      cases e2
      exact h (key.2 (Alike.symm e3))

theorem allAlike_index {hs ns : List (List UInt8)} : (∀ i, i < ns.length → ∃ n h, ns[i]? = some n ∧ hs[i]? = some h ∧ Alike true h n) ↔
    ∃ ys zs, hs = ys ++ zs ∧ AllAlike ys ns := by
  induction ns generalizing hs with
  | nil => exact ⟨fun _ => ⟨[], hs, rfl, .nil⟩, fun _ i hi => absurd hi (by simp)⟩
  | cons n ns ih =>
    constructor
    · intro h
      obtain ⟨n', m, e1, e2, e3⟩ := h 0 (by simp)
      cases e1
      cases hs with
      | nil => cases e2
      | cons m' hs =>
        cases e2
        obtain ⟨ys, zs, rfl, ha⟩ := (ih (hs := hs)).1 fun i hi => by simpa using h (i + 1) (by simpa using hi)
        exact ⟨_ :: ys, zs, rfl, .cons e3 ha⟩
    · rintro ⟨ys, zs, rfl, ha⟩ i hi
      cases ha with
      | cons h ha =>
        cases i with
        | zero => exact ⟨_, _, rfl, rfl, h⟩
        | succ i =>
          have := (ih (hs := _ ++ zs)).2 ⟨_, zs, rfl, ha⟩ i (by simpa using hi)
          simpa using this

/-- What the wildcard code accepts: with `multi` anything may follow. -/
def StarPrefix (host name : List UInt8) (multi : Bool) : Prop :=
  ∃ rest label rest' tail, name = 42 :: 46 :: rest ∧ host = label ++ 46 :: (rest' ++ tail) ∧ (46 : UInt8) ∉ label ∧ Alike true rest' rest ∧
    (tail = [] ∨ multi = true ∧ tail.head? = some 46)

theorem join_ne_nil {xs : List (List UInt8)} {d : UInt8} (h : 2 ≤ xs.length) : join [d] xs ≠ [] := by
  match xs, h with
  | x :: y :: xs, _ => simp [join]

theorem join_append {xs ys : List (List UInt8)} (hx : xs ≠ []) (hy : ys ≠ []) : join [46] (xs ++ ys) = join [46] xs ++ 46 :: join [46] ys := by
  induction xs with
  | nil => exact absurd rfl hx
  | cons x xs ih =>
    by_cases h : xs = []
    · subst h
      rw [List.singleton_append, join_cons _ _ hy]
      simp [join]
    · rw [List.cons_append, join_cons _ _ (by simp [h]), join_cons _ _ h, ih h]
      simp

theorem first_label {label r : List UInt8} {hs : List (List UInt8)} {h0 : List UInt8} (hl : (46 : UInt8) ∉ label) (hd : ∀ x ∈ h0 :: hs, (46 : UInt8) ∉ x)
    (e : join [46] (h0 :: hs) = label ++ 46 :: r) : h0 = label ∧ hs ≠ [] ∧ join [46] hs = r := by
  obtain ⟨xs, hne, hx, hj⟩ := split_exists r
  have : h0 :: hs = label :: xs := by
    refine parts_unique 46 _ _ (by simp) (by simp) hd ?_ ?_
    · intro x hx'
      rcases List.mem_cons.1 hx' with rfl | hx'
      · exact hl
      · exact hx x hx'
    · rw [e, join_cons _ _ hne, hj]; simp
  injection this with e1 e2
  subst e1 e2
  exact ⟨rfl, hne, hj⟩

theorem matchWildcard_spec (host name : List UInt8) (multi : Bool) (hh : 0 ∉ host) (hn : 0 ∉ name) (lh : host.length < Buf.W) (ln : name.length < Buf.W)
    (hne : host ≠ []) (nne : name ≠ []) :
    ∃ b, matchWildcard host name multi = some b ∧ (b = true ↔ StarPrefix host name multi) := by
  unfold matchWildcard
  rw [if_neg (by simp [hne, nne])]
  by_cases hs : eqMaxInt false name [42, 46] 2 = true
  · rw [if_neg (by simp [hs])]
    rw [eqMax_iff, Str.alike_false] at hs
    obtain ⟨rest, rfl⟩ : ∃ rest, name = 42 :: 46 :: rest := by
      match name, hs with
      | [], hs => cases hs
      | [_], hs => simp at hs
      | a :: b :: r, hs => simp at hs; exact ⟨r, by rw [hs.1, hs.2]⟩
    obtain ⟨nt, ntne, ntd, ntj⟩ := split_exists rest
    have en : explode 46 (42 :: 46 :: rest) = some ([42] :: nt) := by
      have : join [46] ([42] :: nt) = 42 :: 46 :: rest := by rw [join_cons _ _ ntne, ntj]; rfl
      rw [← this]
      refine explode_join 46 _ ?_ (by rw [this]; exact hn) (by rw [this]; simp)
      intro x hx
      rcases List.mem_cons.1 hx with rfl | hx
      · decide
      · exact ntd x hx
    obtain ⟨hp, eh, hd, hj, _⟩ := explode_correct 46 host hne hh
    obtain ⟨h0, hs', rfl⟩ : ∃ h0 hs', hp = h0 :: hs' := by
      cases hp with
      | nil => exact absurd hj.symm hne
      | cons a b => exact ⟨a, b, rfl⟩
    rw [eh, en]
    simp only [Option.bind_some]
    rw [if_neg (by simp)]
    have main : ∀ ys zs, hs' = ys ++ zs → AllAlike ys nt → (zs = [] ∨ multi = true) → StarPrefix host (42 :: 46 :: rest) multi := by
      intro ys zs e ha hz
      have yne : ys ≠ [] := by rintro rfl; cases ha; exact ntne rfl
      refine ⟨rest, h0, join [46] ys, if zs = [] then [] else 46 :: join [46] zs, rfl, ?_, hd h0 (by simp), ?_, ?_⟩
      · rw [← hj, join_cons _ _ (by rw [e]; simp [yne]), e]
        by_cases h : zs = []
        · subst h; simp
        · rw [if_neg h, join_append yne h]; simp
      · rw [← ntj]; exact ha.join
      · by_cases h : zs = []
        · exact Or.inl (if_pos h)
        · rw [if_neg h]; exact Or.inr ⟨hz.resolve_left h, rfl⟩
    have back : StarPrefix host (42 :: 46 :: rest) multi → ∃ ys zs, hs' = ys ++ zs ∧ AllAlike ys nt ∧ (zs = [] ∨ multi = true) := by
      rintro ⟨rest', label, r', tail, e1, e2, e3, e4, e5⟩
      injection e1 with _ e1
      injection e1 with _ e1
      subst e1
      rw [← ntj] at e4
      obtain ⟨ys, rfl, yd, ya⟩ := alike_join ntd ntne e4
      have yne : ys ≠ [] := by rintro rfl; cases ya; exact ntne rfl
      rw [← hj] at e2
      obtain ⟨_, hsne, e6⟩ := first_label e3 hd e2
      have hd' : ∀ x ∈ hs', (46 : UInt8) ∉ x := fun x hx => hd x (by simp [hx])
      rcases e5 with rfl | ⟨hm, ht⟩
      · rw [List.append_nil] at e6
        exact ⟨ys, [], by rw [List.append_nil]; exact parts_unique 46 _ _ hsne yne hd' yd e6, ya, Or.inl rfl⟩
      · obtain ⟨t, rfl⟩ : ∃ t, tail = 46 :: t := by
          cases tail with
          | nil => cases ht
          | cons c t => simp at ht; exact ⟨t, by rw [ht]⟩
        obtain ⟨zs, zne, zd, rfl⟩ := split_exists t
        refine ⟨ys, zs, parts_unique 46 _ _ hsne (by simp [yne]) hd' ?_ ?_, ya, Or.inr hm⟩
        · intro y hy
          rcases List.mem_append.1 hy with hy | hy
          · exact yd y hy
          · exact zd y hy
        · rw [e6, join_append yne zne]
    by_cases hl : multi = false ∧ (h0 :: hs').length ≠ ([42] :: nt).length
    · rw [if_pos hl]
      refine ⟨false, rfl, ?_⟩
      simp only [Bool.false_eq_true, false_iff]
      intro h
      obtain ⟨ys, zs, e, ya, hz⟩ := back h
      rcases hz with rfl | hm
      · apply hl.2
        rw [e, List.append_nil]
        simp [ya.length]
      · rw [hm] at hl; exact absurd hl.1 (by decide)
    · rw [if_neg hl]
      by_cases hl2 : (h0 :: hs').length < ([42] :: nt).length
      · rw [if_pos hl2]
        refine ⟨false, rfl, ?_⟩
        simp only [Bool.false_eq_true, false_iff]
        intro h
        obtain ⟨ys, zs, e, ya, hz⟩ := back h
        have := ya.length
        rw [e] at hl2
        simp only [List.length_cons, List.length_append] at hl2
        omega
      · rw [if_neg hl2]
        simp only [List.length_cons] at hl2
        obtain ⟨b, e, hb⟩ := partsLoop_spec (h0 :: hs') ([42] :: nt) (fun x hx => Nat.lt_of_le_of_lt (join_length_le hx) (by rw [hj]; exact lh))
          (fun x hx => by
            have := join_length_le hx
            rw [join_cons _ _ ntne, ntj] at this
            exact Nat.lt_of_le_of_lt this ln) nt.length (by simp; omega) (by simp)
        refine ⟨b, by simpa using e, hb.trans ?_⟩
        simp only [List.getElem?_cons_succ]
        rw [allAlike_index]
        constructor
        · rintro ⟨ys, zs, e1, ya⟩
          refine main ys zs e1 ya ?_
          by_cases hm : multi = true
          · exact Or.inr hm
          · left
            have hm : multi = false := by simpa using hm
            have : hs'.length = nt.length := by
              apply Classical.byContradiction
              intro h
              exact hl ⟨hm, by simpa using h⟩
            rw [e1, List.length_append, ya.length] at this
            exact List.eq_nil_of_length_eq_zero (by omega)
        · intro h
          obtain ⟨ys, zs, e1, ya, _⟩ := back h
          exact ⟨ys, zs, e1, ya⟩
  · rw [if_pos (by simpa using hs)]
    refine ⟨false, rfl, ?_⟩
    simp only [Bool.false_eq_true, false_iff]
    rintro ⟨rest, _, _, _, rfl, _⟩
    apply hs
    rw [eqMax_iff, Str.alike_false]
    rfl

/-! ### The base domain -/

theorem implode_join (xs : List (List UInt8)) (hd : ∀ x ∈ xs, (46 : UInt8) ∉ x) (h0 : ∀ x ∈ xs, (0 : UInt8) ∉ x) : implode 46 0 0 (xs.map some) false = join [46] xs := by
  have one : ∀ x, (46 : UInt8) ∉ x → (0 : UInt8) ∉ x → Str.encloseOne 46 0 0 false (some x) = x := by
    intro x h1 h2
    have : Str.mustEnclose 46 0 0 (some x) = false := by
      simp only [Str.mustEnclose, Str.restricted, List.any_eq_false]
      intro c hc
      have a1 : c ≠ 46 := fun e => h1 (e ▸ hc)
      have a2 : c ≠ 0 := fun e => h2 (e ▸ hc)
      simp [Str.ceq, a1, a2]
    unfold Str.encloseOne
    rw [if_neg (by simp [this])]
    rfl
  have loop : ∀ (xs : List (List UInt8)) (out : List UInt8), (∀ x ∈ xs, (46 : UInt8) ∉ x) → (∀ x ∈ xs, (0 : UInt8) ∉ x) →
      Str.implodeLoop 46 0 0 false (xs.map some) false out = out ++ if xs = [] then [] else 46 :: join [46] xs := by
    intro xs
    induction xs with
    | nil => intro out _ _; simp [Str.implodeLoop]
    | cons x xs ih =>
      intro out h1 h2
      rw [List.map_cons, Str.implodeLoop, ih _ (fun y hy => h1 y (by simp [hy])) (fun y hy => h2 y (by simp [hy])), one x (h1 x (by simp)) (h2 x (by simp))]
      by_cases hn : xs = []
      · subst hn; simp [join]
      · rw [if_neg hn, join_cons _ _ hn]; simp
  cases xs with
  | nil => rfl
  | cons x xs =>
    unfold implode
    rw [List.map_cons, Str.implodeLoop, one x (hd x (by simp)) (h0 x (by simp)), loop xs _ (fun y hy => hd y (by simp [hy])) (fun y hy => h0 y (by simp [hy]))]
    by_cases hn : xs = []
    · subst hn; simp [join]
    · rw [if_neg hn, join_cons _ _ hn]; simp

theorem mem_join {xs : List (List UInt8)} {x : List UInt8} {c : UInt8} (h : x ∈ xs) (hc : c ∈ x) : c ∈ join [46] xs := by
  induction xs with
  | nil => cases h
  | cons y ys ih =>
    by_cases hn : ys = []
    · subst hn
      simp only [List.mem_singleton] at h
      subst h
      exact hc
    · rw [join_cons _ _ hn]
      rcases List.mem_cons.1 h with rfl | h
      · simp [hc]
      · simp [ih h]

theorem base_unique {s b b' : List UInt8} (h : Base s b) (h' : Base s b') : b = b' := by
  obtain ⟨a, xs, l, h1, h2, h3, h4, h5⟩ := h
  obtain ⟨a', xs', l', g1, g2, g3, g4, g5⟩ := h'
  have hx : xs ≠ [] := by rintro rfl; cases h4
  have hx' : xs' ≠ [] := by rintro rfl; cases g4
  have e : a ++ xs = a' ++ xs' := parts_unique 46 _ _ (by simp [hx]) (by simp [hx']) h1 g1 (h2.trans g2.symm)
  have el : l = l' := by
    have e1 : (a ++ xs).getLast? = some l := by rw [List.getLast?_append, h4]; rfl
    have e2 : (a' ++ xs').getLast? = some l' := by rw [List.getLast?_append, g4]; rfl
    rw [e, e2] at e1
    exact (Option.some.inj e1).symm
  subst el
  have hlen : xs.length = xs'.length := by
    have := congrArg List.length e
    simp only [List.length_append] at this
    generalize (if l.length = 2 then 3 else 2) = k at *
    rcases h5 with ⟨rfl, h5⟩ | h5 <;> rcases g5 with ⟨rfl, g5⟩ | g5 <;> (try simp only [List.length_nil] at this) <;> omega
  have : xs = xs' := (List.append_inj' e hlen).2
  rw [← h3, ← g3, this]

theorem baseDomain_spec (s : List UInt8) (hne : s ≠ []) (h0 : 0 ∉ s) (hl : s.length ≤ 255) : ∃ b, baseDomain s = some (true, b) ∧ Base s b := by
  obtain ⟨xs, e, hd, hj, _⟩ := explode_correct 46 s hne h0
  have xne : xs ≠ [] := by rintro rfl; exact hne hj.symm
  unfold baseDomain
  rw [e]
  simp only [Option.bind_some]
  obtain ⟨l, el⟩ : ∃ l, xs.getLast? = some l := ⟨_, List.getLast?_eq_some_getLast xne⟩
  rw [el]
  simp only []
  have hcpy : ∀ t : List UInt8, t.length ≤ 255 → cpy256 t = t := fun t h => List.take_of_length_le h
  generalize hk : (if l.length = 2 then 3 else 2) = k
  have hk2 : 2 ≤ k := by split at hk <;> omega
  by_cases hs : k ≥ xs.length
  · rw [if_pos hs, hcpy s hl]
    refine ⟨s, rfl, [], xs, l, hd, hj, hj, el, Or.inl ⟨rfl, by rw [hk]; exact hs⟩⟩
  · rw [if_neg hs]
    have ex : xs.take (xs.length - k) ++ xs.drop (xs.length - k) = xs := List.take_append_drop _ _
    have hlen : (xs.drop (xs.length - k)).length = k := by rw [List.length_drop]; omega
    have tne : xs.take (xs.length - k) ≠ [] := by
      intro h
      have := congrArg List.length h
      rw [List.length_take, List.length_nil] at this
      omega
    have dne : xs.drop (xs.length - k) ≠ [] := by
      intro h
      rw [h, List.length_nil] at hlen
      omega
    rw [implode_join _ (fun x hx => hd x (List.mem_of_mem_drop hx)) (fun x hx hc => h0 (by rw [← hj]; exact mem_join (List.mem_of_mem_drop hx) hc))]
    rw [if_neg (join_ne_nil (by omega)), hcpy]
    · refine ⟨_, rfl, _, _, l, by rw [ex]; exact hd, by rw [ex]; exact hj, rfl, ?_, Or.inr (by rw [hk]; exact hlen)⟩
      have := el
      rw [← ex, List.getLast?_append] at this
      cases hg : (xs.drop (xs.length - k)).getLast? with
      | none => exact absurd (List.getLast?_eq_none_iff.1 hg) dne
      | some z => rw [hg] at this; exact this
    · have := hj
      rw [← ex, join_append tne dne] at this
      have := congrArg List.length this
      simp only [List.length_append, List.length_cons] at this
      omega

/-! ### Property theorems -/

/-- **C71**, one name.  A name is accepted for a host exactly if it covers it.  Missing: multilevel wildcards (`multilevel_fails`)
and names of more than 255 bytes. -/
theorem hostMatch_partial (host name : List UInt8) (fl : Flags) (hfl : fl ≠ noFlags) (hm : fl.multilevel = false) (hh : 0 ∉ host) (hn : 0 ∉ name)
    (lh : host.length ≤ 255) (ln : name.length ≤ 255) :
    ∃ b, hostMatch host name fl = some b ∧ (b = true ↔ Covers fl host name) := by
  unfold hostMatch Covers
  by_cases hne : host = []
  · exact ⟨false, if_pos (Or.inl hne), by simp [hne]⟩
  by_cases nne : name = []
  · exact ⟨false, if_pos (Or.inr nne), by simp [nne]⟩
  have hW : 255 < Buf.W := by decide
  rw [if_neg (by simp [hne, nne]), if_neg hfl]
  have k1 := eq_iff true host name (by omega) (by omega)
  by_cases h1 : eq true host name = true
  · rw [if_pos h1]
    exact ⟨true, rfl, by simp [hne, nne, k1.1 h1]⟩
  rw [if_neg h1]
  have h1' : ¬ Alike true host name := fun h => h1 (k1.2 h)
  have wild : ∃ w, (if fl.wildcard then matchWildcard host name fl.multilevel else some false) = some w ∧ (w = true ↔ fl.wildcard = true ∧ StarCovers host name) := by
    by_cases hw : fl.wildcard = true
    · rw [if_pos hw]
      obtain ⟨b, e, hb⟩ := matchWildcard_spec host name fl.multilevel hh hn (by omega) (by omega) hne nne
      refine ⟨b, e, hb.trans ?_⟩
      constructor
      · rintro ⟨rest, label, r', tail, e1, e2, e3, e4, e5⟩
        rcases e5 with rfl | ⟨h, _⟩
        · exact ⟨hw, rest, label, r', e1, by rw [e2, List.append_nil], e3, e4⟩
        · rw [hm] at h; cases h
      · rintro ⟨_, rest, label, r', e1, e2, e3, e4⟩
        exact ⟨rest, label, r', [], e1, by rw [e2, List.append_nil], e3, e4, Or.inl rfl⟩
    · rw [if_neg hw]
      exact ⟨false, rfl, by simp [hw]⟩
  obtain ⟨w, ew, hw⟩ := wild
  rw [ew]
  simp only [Option.bind_some]
  by_cases hwt : w = true
  · rw [if_pos hwt]
    exact ⟨true, rfl, by simp [hne, nne, hw.1 hwt]⟩
  rw [if_neg hwt]
  have hw' : ¬ (fl.wildcard = true ∧ StarCovers host name) := fun h => hwt (hw.2 h)
  by_cases hf : fl.fuzzy = true
  · rw [if_pos hf]
    have k2 := eq_iff true host localhost (by omega) (by decide)
    by_cases h2 : eq true host [108, 111, 99, 97, 108, 104, 111, 115, 116] = true
    · rw [if_pos h2]
      exact ⟨true, rfl, by simp only [true_iff]; exact ⟨hne, nne, Or.inr (Or.inr ⟨hf, Or.inl (k2.1 h2)⟩)⟩⟩
    rw [if_neg h2]
    obtain ⟨hb, eh, hhb⟩ := baseDomain_spec host hne hh lh
    obtain ⟨nb, en, hnb⟩ := baseDomain_spec name nne hn ln
    rw [eh, en]
    simp only [Option.bind_some, Bool.true_eq_false, if_false]
    refine ⟨_, rfl, ?_⟩
    have short : ∀ {s b : List UInt8}, Base s b → b.length ≤ s.length := by
      rintro s b ⟨a, xs, l, _, rfl, rfl, hl, _⟩
      by_cases ha : a = []
      · subst ha; exact Nat.le_refl _
      · have : xs ≠ [] := by rintro rfl; cases hl
        rw [join_append ha this]
        simp only [List.length_append, List.length_cons]
        omega
    have := short hhb
    have := short hnb
    rw [eq_iff true hb nb (by omega) (by omega)]
    constructor
    · intro h
      exact ⟨hne, nne, Or.inr (Or.inr ⟨hf, Or.inr ⟨hb, nb, hhb, hnb, h⟩⟩)⟩
    · rintro ⟨_, _, h | h | ⟨_, h | ⟨a, b, ha, hb', hab⟩⟩⟩
      · exact absurd h h1'
      · exact absurd h hw'
      · exact absurd (k2.2 h) h2
      · rw [base_unique hhb ha, base_unique hnb hb']
        exact hab
  · rw [if_neg hf]
    exact ⟨false, rfl, by simp [h1', hw', hf]⟩

/-- `www.Example.com` is covered by `*.example.com`. -/
example : hostMatch [119, 119, 119, 46, 69, 120, 97, 109, 112, 108, 101, 46, 99, 111, 109] [42, 46, 101, 120, 97, 109, 112, 108, 101, 46, 99, 111, 109] {} = some true ∧
    hostMatch [97, 46, 98, 46, 99, 46, 100] [42, 46, 99, 46, 100] {} = some false ∧ hostMatch [99, 46, 100] [42, 46, 99, 46, 100] {} = some false := by decide +kernel

/-- A name the certificate presents to the comparison: without zero bytes, or the text of an address. -/
inductive Presents (ipText : List UInt8 → Option (List UInt8)) (cert : Cert) (fl : Flags) : List UInt8 → Prop
  | dns {n : List UInt8} (h : .dns n ∈ cert.sans) (hs : fl.san = true) (h0 : (0 : UInt8) ∉ n) : Presents ipText cert fl n
  | ip {b n : List UInt8} (h : .ip b ∈ cert.sans) (hs : fl.san = true) (hn : ipText b = some n) : Presents ipText cert fl n
  | cn {n : List UInt8} (h : n ∈ cert.cns) (hs : fl.cn = true) (h0 : (0 : UInt8) ∉ n) : Presents ipText cert fl n

/-- **C71**, certificates.  A certificate is accepted for a host exactly if one of the names it presents covers it: a name with a
zero byte never does.  Missing: as in `hostMatch_partial`. -/
theorem verifyHost_partial (ipText : List UInt8 → Option (List UInt8)) (cert : Cert) (host : List UInt8) (fl : Flags) (hfl : fl ≠ noFlags)
    (hm : fl.multilevel = false) (hh : 0 ∉ host) (lh : host.length ≤ 255) (ls : ∀ n, .dns n ∈ cert.sans → n.length ≤ 255) (lc : ∀ n ∈ cert.cns, n.length ≤ 255)
    (lip : ∀ b n, ipText b = some n → n.length ≤ 255 ∧ 0 ∉ n) :
    ∃ b, verifyHost ipText cert host fl = some b ∧ (b = true ↔ ∃ n, Presents ipText cert fl n ∧ Covers fl host n) := by
  have sans : ∀ l : List San, (∀ n, .dns n ∈ l → n.length ≤ 255) → ∃ b, matchSans ipText host fl l = some b ∧
      (b = true ↔ (∃ n, .dns n ∈ l ∧ 0 ∉ n ∧ Covers fl host n) ∨ ∃ a n, .ip a ∈ l ∧ ipText a = some n ∧ Covers fl host n) := by
    intro l
    induction l with
    | nil => intro _; exact ⟨false, rfl, by simp⟩
    | cons s l ih =>
      intro hl
      obtain ⟨b, e, hb⟩ := ih fun n hn => hl n (by simp [hn])
      unfold matchSans
      have skip : (∀ n, s = .dns n → 0 ∉ n → ¬ Covers fl host n) → (∀ a n, s = .ip a → ipText a = some n → ¬ Covers fl host n) →
          ∃ b, matchSans ipText host fl l = some b ∧ (b = true ↔ (∃ n, .dns n ∈ s :: l ∧ 0 ∉ n ∧ Covers fl host n) ∨ ∃ a n, .ip a ∈ s :: l ∧ ipText a = some n ∧ Covers fl host n) := by
        intro k1 k2
        refine ⟨b, e, hb.trans ?_⟩
        constructor
        · rintro (⟨n, h1, h2⟩ | ⟨a, n, h1, h2⟩)
          · exact Or.inl ⟨n, by simp [h1], h2⟩
          · exact Or.inr ⟨a, n, by simp [h1], h2⟩
        · rintro (⟨n, h1, h2, h3⟩ | ⟨a, n, h1, h2, h3⟩)
          · rcases List.mem_cons.1 h1 with h1 | h1
            · exact absurd h3 (k1 n h1.symm h2)
            · exact Or.inl ⟨n, h1, h2, h3⟩
          · rcases List.mem_cons.1 h1 with h1 | h1
            · exact absurd h3 (k2 a n h1.symm h2)
            · exact Or.inr ⟨a, n, h1, h2, h3⟩
      cases s with
      | other => exact skip (by simp) (by simp)
      | dns n =>
        unfold sanText
        by_cases hn : n = [] ∨ 0 ∈ n
        · simp only [if_pos hn]
          refine skip ?_ (by simp)
          intro n' e0 h0 hc
          cases e0
          rcases hn with rfl | hn
          · exact hc.2.1 rfl
          · exact h0 hn
        · simp only [if_neg hn]
          have hl255 := hl n (by simp)
          rw [show cpy256 n = n from List.take_of_length_le hl255]
          obtain ⟨m, em, hmm⟩ := hostMatch_partial host n fl hfl hm hh (fun h => hn (Or.inr h)) lh hl255
          rw [em]
          simp only [Option.bind_some]
          by_cases hmt : m = true
          · rw [if_pos hmt]
            exact ⟨true, rfl, by simp only [true_iff]; exact Or.inl ⟨n, by simp, fun h => hn (Or.inr h), hmm.1 hmt⟩⟩
          · rw [if_neg hmt]
            refine skip ?_ (by simp)
            intro n' e0 _ hc
            cases e0
            exact hmt (hmm.2 hc)
      | ip a =>
        unfold sanText
        cases ei : ipText a with
        | none =>
          simp only [ei, Option.map_none]
          refine skip (by simp) ?_
          intro a' n e0 e1
          cases e0
          rw [ei] at e1
          cases e1
        | some n =>
          simp only [ei, Option.map_some]
          obtain ⟨l1, l2⟩ := lip a n ei
          rw [show cpy256 n = n from List.take_of_length_le l1]
          obtain ⟨m, em, hmm⟩ := hostMatch_partial host n fl hfl hm hh l2 lh l1
          rw [em]
          simp only [Option.bind_some]
          by_cases hmt : m = true
          · rw [if_pos hmt]
            exact ⟨true, rfl, by simp only [true_iff]; exact Or.inr ⟨a, n, by simp, ei, hmm.1 hmt⟩⟩
          · rw [if_neg hmt]
            refine skip (by simp) ?_
            intro a' n' e0 e1 hc
            cases e0
            rw [ei] at e1
            cases e1
            exact hmt (hmm.2 hc)
  have cns : ∀ l : List (List UInt8), (∀ n ∈ l, n.length ≤ 255) → ∃ b, matchCns host fl l = some b ∧ (b = true ↔ ∃ n, n ∈ l ∧ 0 ∉ n ∧ Covers fl host n) := by
    intro l
    induction l with
    | nil => intro _; exact ⟨false, rfl, by simp⟩
    | cons n l ih =>
      intro hl
      obtain ⟨b, e, hb⟩ := ih fun n hn => hl n (by simp [hn])
      unfold matchCns
      have skip : (0 ∉ n → ¬ Covers fl host n) → ∃ b, matchCns host fl l = some b ∧ (b = true ↔ ∃ n', n' ∈ n :: l ∧ 0 ∉ n' ∧ Covers fl host n') := by
        intro k
        refine ⟨b, e, hb.trans ⟨fun ⟨n', h1, h2⟩ => ⟨n', by simp [h1], h2⟩, ?_⟩⟩
        rintro ⟨n', h1, h2, h3⟩
        rcases List.mem_cons.1 h1 with rfl | h1
        · exact absurd h3 (k h2)
        · exact ⟨n', h1, h2, h3⟩
      by_cases hn : n = [] ∨ 0 ∈ n
      · rw [if_pos hn]
        refine skip ?_
        intro h0 hc
        rcases hn with rfl | hn
        · exact hc.2.1 rfl
        · exact h0 hn
      · rw [if_neg hn]
        obtain ⟨m, em, hmm⟩ := hostMatch_partial host n fl hfl hm hh (fun h => hn (Or.inr h)) lh (hl n (by simp))
        rw [em]
        simp only [Option.bind_some]
        by_cases hmt : m = true
        · rw [if_pos hmt]
          exact ⟨true, rfl, by simp only [true_iff]; exact ⟨n, by simp, fun h => hn (Or.inr h), hmm.1 hmt⟩⟩
        · rw [if_neg hmt]
          exact skip fun _ hc => hmt (hmm.2 hc)
  unfold verifyHost
  by_cases hne : host = []
  · rw [if_pos hne]
    refine ⟨false, rfl, ?_⟩
    simp only [Bool.false_eq_true, false_iff]
    rintro ⟨n, _, hc⟩
    exact hc.1 hne
  rw [if_neg hne]
  obtain ⟨b1, e1, hb1⟩ := sans cert.sans ls
  obtain ⟨b2, e2, hb2⟩ := cns cert.cns lc
  have key : (∃ n, Presents ipText cert fl n ∧ Covers fl host n) ↔ (fl.san = true ∧ b1 = true) ∨ (fl.cn = true ∧ b2 = true) := by
    rw [hb1, hb2]
    constructor
    · rintro ⟨n, hp, hc⟩
      cases hp with
      | dns h hs h0 => exact Or.inl ⟨hs, Or.inl ⟨n, h, h0, hc⟩⟩
      | ip h hs hn => exact Or.inl ⟨hs, Or.inr ⟨_, n, h, hn, hc⟩⟩
      | cn h hs h0 => exact Or.inr ⟨hs, n, h, h0, hc⟩
    · rintro (⟨hs, ⟨n, h, h0, hc⟩ | ⟨a, n, h, hn, hc⟩⟩ | ⟨hs, n, h, h0, hc⟩)
      · exact ⟨n, .dns h hs h0, hc⟩
      · exact ⟨n, .ip h hs hn, hc⟩
      · exact ⟨n, .cn h hs h0, hc⟩
  rw [key, e1, e2]
  cases fl.san <;> cases fl.cn <;> cases b1 <;> cases b2 <;> simp

/-- A certificate for `a.b` as common name and a name `a.b` followed by a zero byte: only the first counts. -/
example : verifyHost (fun _ => none) ⟨[.dns [97, 46, 98, 0, 99]], []⟩ [97, 46, 98] {} = some false ∧
    verifyHost (fun _ => none) ⟨[.dns [97, 46, 98, 0, 99]], [[97, 46, 98]]⟩ [97, 46, 98] {} = some true := by decide +kernel

/-! ### What goes wrong -/

/-- With multilevel wildcards the labels are compared from the left: a host is accepted if it has the name at its front, whatever
follows. -/
theorem multilevel_fails (label rest evil : List UInt8) (hl : (46 : UInt8) ∉ label) (h0 : 0 ∉ label ++ 46 :: (rest ++ 46 :: evil))
    (hlen : (label ++ 46 :: (rest ++ 46 :: evil)).length + 2 < Buf.W) : hostMatch (label ++ 46 :: (rest ++ 46 :: evil)) (42 :: 46 :: rest) { multilevel := true } = some true := by
  have alike_refl : ∀ s, Alike true s s := by
    intro s
    induction s with
    | nil => exact .nil
    | cons c s ih => exact .cons (Or.inl rfl) ih
  obtain ⟨b, e, hb⟩ := matchWildcard_spec (label ++ 46 :: (rest ++ 46 :: evil)) (42 :: 46 :: rest) true h0 (by
    simp only [List.mem_append, List.mem_cons, not_or] at h0 ⊢
    exact ⟨by decide, by decide, h0.2.2.1⟩) (by omega) (by
    simp only [List.length_append, List.length_cons] at hlen ⊢
    omega) (by simp) (by simp)
  have := hb.2 ⟨rest, label, rest, 46 :: evil, rfl, rfl, hl, alike_refl rest, Or.inr ⟨rfl, rfl⟩⟩
  subst this
  unfold hostMatch
  rw [if_neg (by simp), if_neg (by decide)]
  split
  · rfl
  · simp only [if_true, e, Option.bind_some]

/-- `x.example.com.evil.org` is accepted for `*.example.com`, `a.b.example.com` is not. -/
theorem multilevel_example_fails :
    hostMatch [120, 46, 101, 120, 97, 109, 112, 108, 101, 46, 99, 111, 109, 46, 101, 118, 105, 108, 46, 111, 114, 103] [42, 46, 101, 120, 97, 109, 112, 108, 101, 46, 99, 111, 109] { multilevel := true } = some true ∧
    hostMatch [97, 46, 98, 46, 101, 120, 97, 109, 112, 108, 101, 46, 99, 111, 109] [42, 46, 101, 120, 97, 109, 112, 108, 101, 46, 99, 111, 109] { multilevel := true } = some false := by decide +kernel

/-- An alternative name of more than 255 bytes counts as its first 255. -/
theorem long_name_fails (host tail : List UInt8) (h0 : 0 ∉ host ++ tail) (hl : host.length = 255) :
    verifyHost (fun _ => none) ⟨[.dns (host ++ tail)], []⟩ host {} = some true := by
  have hne : host ≠ [] := by rintro rfl; simp at hl
  have alike_refl : ∀ s, Alike true s s := by
    intro s
    induction s with
    | nil => exact .nil
    | cons c s ih => exact .cons (Or.inl rfl) ih
  unfold verifyHost
  rw [if_neg hne]
  simp only [if_true, matchSans, sanText]
  rw [if_neg (by simp [hne]; simpa using h0)]
  simp only []
  have : cpy256 (host ++ tail) = host := by
    unfold cpy256
    rw [← hl, List.take_left]
  rw [this]
  unfold hostMatch
  rw [if_neg (by simp [hne]), if_neg (by decide), if_pos ((eq_iff true host host (by rw [hl]; decide) (by rw [hl]; decide)).2 (alike_refl host))]
  rfl

end Verif.Tls
