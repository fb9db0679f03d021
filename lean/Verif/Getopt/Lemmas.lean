import Verif.Getopt.Model
import Verif.Num.Lemmas
import Verif.Str.Props
import Verif.Str.SplitProps

/-! What a command line means, and the lemmas behind `Verif.Getopt.Props`. -/

namespace Verif.Getopt
open Verif

/-! ### The specification -/

/-- Names compare without regard to the case of ASCII letters. -/
def low (w : Bytes) : Bytes := w.map fun c => if 65 ≤ c.toNat ∧ c.toNat ≤ 90 then c + 32 else c

/-- `nm` is how the option is written: `-c` or `--name`. -/
def Named (o : Opt) (nm : Bytes) : Prop :=
  (o.short ≠ 0 ∧ nm = [45, o.short]) ∨ ∃ n l, nm = 45 :: 45 :: n ∧ o.long = some l ∧ low n = low l

/-- An option that never takes a value. -/
def Flag (o : Opt) : Prop := o.ty = .boolean ∧ o.req = false

/-- An argument that begins with a dash. -/
def Dash (w : Bytes) : Prop := ∃ t, w = 45 :: t

/-- The words that are true: yes, y, true, t, 1, on. -/
def trueWords : List Bytes := [[121, 101, 115], [121], [116, 114, 117, 101], [116], [49], [111, 110]]

/-- What a callback is given for a value; `none` at the end is a value that cannot be converted.  Numbers are what
`M_str_to_int64_ex` and `M_decimal_from_str` make of the text. -/
inductive Conv : Ty → Option Bytes → Option Val → Prop
  | intNone : Conv .integer none (some (.integer none))
  | int {v n e} : Num.toInt64Ex (v ++ [0]) v.length 10 = some (.success, some (n, e)) → Conv .integer (some v) (some (.integer (some n)))
  | intBad {v rv r} : Num.toInt64Ex (v ++ [0]) v.length 10 = some (rv, r) → rv ≠ .success → Conv .integer (some v) none
  | decNone : Conv .decimal none (some (.decimal none))
  | dec {v d e} : Decimal.fromStr (v ++ [0]) v.length = some (.success, d, e) → Conv .decimal (some v) (some (.decimal (some d)))
  | decBad {v rv d e} : Decimal.fromStr (v ++ [0]) v.length = some (rv, d, e) → rv ≠ .success → Conv .decimal (some v) none
  | string {v} : Conv .string v (some (.string v))
  | boolNone : Conv .boolean none (some (.boolean true))
  | bool {v b} : (b = true ↔ low v ∈ trueWords) → Conv .boolean (some v) (some (.boolean b))

/-- The arguments that one use of the option takes up, the value, and the arguments left over.  The arguments carry their
indexes. -/
inductive Use (o : Opt) : List (Nat × Bytes) → Option Bytes → List (Nat × Bytes) → Prop
  | flag {i w ws} : Named o w → Flag o → Use o ((i, w) :: ws) none ws
  | joined {i w v ws} : Named o w → ¬ Flag o → v ≠ [] → 61 ∉ v → Use o ((i, w ++ 61 :: v) :: ws) (some v) ws
  | next {i w j v ws} : Named o w → ¬ Flag o → ¬ Dash v → Use o ((i, w) :: (j, v) :: ws) (some v) ws
  | omitted {i w ws} : Named o w → ¬ Flag o → o.req = false → (∀ p ∈ ws.head?, Dash p.2) → Use o ((i, w) :: ws) none ws

/-- Options are being read; another argument has been seen; `--` has been seen. -/
inductive Phase
  | opts | others | all
deriving DecidableEq

/-- Several short options in one argument. -/
def Grouped (nm : Bytes) : Prop := ∃ c d t, nm = 45 :: c :: d :: t ∧ c ≠ 45

/-- What happens with the remaining arguments after the calls `log`.  With `grp`, `-ab` means `-a -b`. -/
inductive Run (grp : Prop) (opts : List Opt) (nonopt : Bool) (cb : Cb) : Phase → List (Nat × Bytes) → List Ev → Out → Prop
  | done {p log} : Run grp opts nonopt cb p [] log ⟨none, none, log⟩
  | stop {p i ws log r} : p ≠ .all → Run grp opts nonopt cb .all ws log r → Run grp opts nonopt cb p ((i, [45, 45]) :: ws) log r
  | other {p i w ws log r} : (p = .all ∨ ¬ Dash w) → nonopt = true → cb log (.nonopt i w) = true →
      Run grp opts nonopt cb (if p = .all then .all else .others) ws (log ++ [.nonopt i w]) r →
      Run grp opts nonopt cb p ((i, w) :: ws) log r
  | otherRefused {p i w ws log} : (p = .all ∨ ¬ Dash w) → nonopt = true → cb log (.nonopt i w) = false →
      Run grp opts nonopt cb p ((i, w) :: ws) log ⟨some .nonOption, some i, log ++ [.nonopt i w]⟩
  | otherNone {p i w ws log} : (p = .all ∨ ¬ Dash w) → nonopt = false →
      Run grp opts nonopt cb p ((i, w) :: ws) log ⟨some .nonOption, some i, log⟩
  | late {i w ws log} : Dash w → w ≠ [45, 45] →
      Run grp opts nonopt cb .others ((i, w) :: ws) log ⟨some .invalidOrder, some i, log⟩
  | dash {i ws log} : Run grp opts nonopt cb .opts ((i, [45]) :: ws) log ⟨some .invalidOpt, some i, log⟩
  | badJoin {i w ws log} : Dash w → 61 ∈ w → (¬ ∃ n v, w = n ++ 61 :: v ∧ 61 ∉ n ∧ 61 ∉ v ∧ v ≠ []) →
      Run grp opts nonopt cb .opts ((i, w) :: ws) log ⟨some .missingValue, some i, log⟩
  | unknown {i nm w ws log} : Dash nm → nm ≠ [45, 45] ∨ w ≠ nm → (w = nm ∨ ∃ v, v ≠ [] ∧ 61 ∉ v ∧ w = nm ++ 61 :: v) → 61 ∉ nm → ¬ Grouped nm →
      (∀ o ∈ opts, ¬ Named o nm) → Run grp opts nonopt cb .opts ((i, w) :: ws) log ⟨some .invalidOpt, some i, log⟩
  | missing {o i w ws log} : o ∈ opts → Named o w → o.req = true → (∀ p ∈ ws.head?, Dash p.2) →
      Run grp opts nonopt cb .opts ((i, w) :: ws) log ⟨some .missingValue, some i, log⟩
  | flagJoin {o i w v ws log} : o ∈ opts → Named o w → Flag o → v ≠ [] → 61 ∉ v →
      Run grp opts nonopt cb .opts ((i, w ++ 61 :: v) :: ws) log ⟨some .invalidDataType, some i, log⟩
  | badValue {o i w ws v ws' log} : o ∈ opts → Use o ((i, w) :: ws) v ws' → Conv o.ty v none →
      Run grp opts nonopt cb .opts ((i, w) :: ws) log ⟨some .invalidDataType, some i, log⟩
  | refused {o i w ws v x ws' log} : o ∈ opts → Use o ((i, w) :: ws) v ws' → Conv o.ty v (some x) → cb log (.opt o x) = false →
      Run grp opts nonopt cb .opts ((i, w) :: ws) log ⟨some .invalidDataType, some i, log ++ [.opt o x]⟩
  | opt {o i w ws v x ws' log r} : o ∈ opts → Use o ((i, w) :: ws) v ws' → Conv o.ty v (some x) → cb log (.opt o x) = true →
      Run grp opts nonopt cb .opts ws' (log ++ [.opt o x]) r → Run grp opts nonopt cb .opts ((i, w) :: ws) log r
  | group {i c d t ws log r} : grp → c ≠ 45 → c ≠ 61 → d ≠ 45 → d ≠ 61 →
      Run grp opts nonopt cb .opts ((i, [45, c]) :: (i, 45 :: d :: t) :: ws) log r →
      Run grp opts nonopt cb .opts ((i, 45 :: c :: d :: t) :: ws) log r

/-- The arguments with their indexes. -/
def tag : Nat → List Bytes → List (Nat × Bytes)
  | _, [] => []
  | i, w :: ws => (i, w) :: tag (i + 1) ws

/-- The objects that a program can make. -/
inductive Made : G → Prop
  | create (n : Bool) : Made (create n)
  | add {g g' : G} {o : Opt} : Made g → add g o = some g' → Made g'

/-- A name that a short option may have. -/
def GoodShort (c : UInt8) : Prop := 33 ≤ c.toNat ∧ c.toNat ≤ 126 ∧ c ≠ 45 ∧ c ≠ 61 ∧ c ≠ 34 ∧ c ≠ 39

/-- A name that a long option may have. -/
def GoodLong (l : Bytes) : Prop :=
  l ≠ [] ∧ (∀ c ∈ l, 33 ≤ c.toNat ∧ c.toNat ≤ 126 ∧ c ≠ 61 ∧ c ≠ 34 ∧ c ≠ 39) ∧ (∀ t, l ≠ 45 :: t) ∧ ∀ t, l ≠ t ++ [45]

/-! ### The table of options -/

theorem low_eq (w : Bytes) : low w = w.map Chr.toLower := by
  unfold low
  apply List.map_congr_left
  intro c _
  apply UInt8.toNat_inj.1
  rw [Str.toLower_nat]
  split
  next h => rw [UInt8.toNat_add]; simp; omega
  next => rfl

theorem graph_iff (c : UInt8) : (decide (33 ≤ c) && decide (c < 127)) = true ↔ 33 ≤ c.toNat ∧ c.toNat ≤ 126 := by
  rw [Bool.and_eq_true, decide_eq_true_iff, decide_eq_true_iff, UInt8.le_iff_toNat_le, UInt8.lt_iff_toNat_lt]
  have e1 : (33 : UInt8).toNat = 33 := rfl
  have e2 : (127 : UInt8).toNat = 127 := rfl
  omega

theorem validShort_iff (c : UInt8) : validShort c = true ↔ c = 0 ∨ GoodShort c := by
  unfold validShort GoodShort
  have := graph_iff c
  by_cases h0 : c = 0
  · simp [h0]
  · by_cases h1 : (decide (33 ≤ c) && decide (c < 127)) = true
    · have h2 := this.1 h1
      simp only [h0, h1]
      simp [h2]
    · have h2 : ¬ (33 ≤ c.toNat ∧ c.toNat ≤ 126) := fun h => h1 (this.2 h)
      rw [Bool.not_eq_true] at h1
      simp only [h0, h1]
      simp only [if_false, Bool.not_false, if_true, Bool.false_eq_true, false_or, false_iff]
      exact fun h => h2 ⟨h.1, h.2.1⟩

theorem validLong_iff (l : Bytes) : validLong (some l) = true ↔ GoodLong l := by
  unfold validLong GoodLong
  by_cases h0 : l = []
  · simp [h0]
  have h1 : (l.all fun c => decide (33 ≤ c) && decide (c < 127)) = true ↔ ∀ c ∈ l, 33 ≤ c.toNat ∧ c.toNat ≤ 126 := by
    rw [List.all_eq_true]
    exact forall_congr' fun c => imp_congr_right fun _ => graph_iff c
  have h2 : l.head? = some 45 ↔ ∃ t, l = 45 :: t := by cases l <;> simp
  have h3 : l.getLast? = some 45 ↔ ∃ t, l = t ++ [45] := by
    constructor
    · intro h
      exact ⟨l.dropLast, by rw [List.getLast?_eq_some_iff] at h; obtain ⟨t, rfl⟩ := h; simp⟩
    · rintro ⟨t, rfl⟩; simp
  dsimp only
  rw [if_neg h0]
  by_cases h4 : (l.all fun c => decide (33 ≤ c) && decide (c < 127)) = true
  · have h5 := h1.1 h4
    rw [if_neg (by rw [h4]; simp)]
    by_cases a : l.head? = some 45 ∨ l.getLast? = some 45
    · rw [if_pos a]
      rw [h2, h3] at a
      simp only [Bool.false_eq_true, false_iff]
      rintro ⟨_, _, h7, h8⟩
      rcases a with ⟨t, e⟩ | ⟨t, e⟩
      · exact h7 t e
      · exact h8 t e
    · rw [if_neg a]
      rw [h2, h3] at a
      simp only [not_or, not_exists] at a
      by_cases b : 61 ∈ l ∨ 34 ∈ l ∨ 39 ∈ l
      · rw [if_pos b]
        simp only [Bool.false_eq_true, false_iff]
        rintro ⟨_, h6, _⟩
        rcases b with h | h | h
        · exact (h6 _ h).2.2.1 rfl
        · exact (h6 _ h).2.2.2.1 rfl
        · exact (h6 _ h).2.2.2.2 rfl
      · rw [if_neg b]
        simp only [not_or] at b
        refine ⟨fun _ => ⟨h0, fun c hc => ⟨(h5 c hc).1, (h5 c hc).2, ?_, ?_, ?_⟩, a.1, a.2⟩, fun _ => rfl⟩
        · rintro rfl; exact b.1 hc
        · rintro rfl; exact b.2.1 hc
        · rintro rfl; exact b.2.2 hc
  · have h5 : ¬ _ := fun h => h4 (h1.2 h)
    rw [Bool.not_eq_true] at h4
    rw [if_pos (by rw [h4]; rfl)]
    simp only [Bool.false_eq_true, false_iff]
    exact fun h => h5 fun c hc => ⟨(h.2.1 c hc).1, (h.2.1 c hc).2.1⟩

/-- The tables hold the options of the list under their names, each name once. -/
structure Table (g : G) : Prop where
  shorts : ∀ p, p ∈ g.shorts ↔ p.2 ∈ g.list ∧ p.1 = p.2.short ∧ p.1 ≠ 0
  longs : ∀ p, p ∈ g.longs ↔ p.2 ∈ g.list ∧ some p.1 = p.2.long
  good : ∀ o ∈ g.list, (o.short = 0 ∨ GoodShort o.short) ∧ ∀ l, o.long = some l → GoodLong l
  one : ∀ o ∈ g.list, ∀ o' ∈ g.list, o.short ≠ 0 → o.short = o'.short → o = o'
  oneLong : ∀ o ∈ g.list, ∀ o' ∈ g.list, ∀ l l', o.long = some l → o'.long = some l' → low l = low l' → o = o'

theorem Table.getShort {g : G} (t : Table g) (c : UInt8) (o : Opt) : getShort g c = some o ↔ o ∈ g.list ∧ o.short = c ∧ c ≠ 0 := by
  unfold Getopt.getShort
  constructor
  · intro h
    rw [Option.map_eq_some_iff] at h
    obtain ⟨p, h1, rfl⟩ := h
    have h2 := List.find?_some h1
    have h3 := (t.shorts p).1 (List.mem_of_find?_eq_some h1)
    simp only [decide_eq_true_eq] at h2
    subst h2
    exact ⟨h3.1, h3.2.1.symm, h3.2.2⟩
  · rintro ⟨h1, h2, h3⟩
    cases h4 : g.shorts.find? fun p => p.1 = c with
    | none =>
      rw [List.find?_eq_none] at h4
      exact absurd (by simp) (h4 (c, o) ((t.shorts (c, o)).2 ⟨h1, h2.symm, h3⟩))
    | some p =>
      have h5 := List.find?_some h4
      have h6 := (t.shorts p).1 (List.mem_of_find?_eq_some h4)
      simp only [decide_eq_true_eq] at h5
      rw [Option.map_some, t.one o h1 p.2 h6.1 (by rw [h2]; exact h3) (by rw [h2, ← h5]; exact h6.2.1)]

theorem Table.getLong {g : G} (t : Table g) (k : Bytes) (o : Opt) : getLong g k = some o ↔ o ∈ g.list ∧ ∃ l, o.long = some l ∧ low k = low l := by
  unfold Getopt.getLong
  constructor
  · intro h
    rw [Option.map_eq_some_iff] at h
    obtain ⟨p, h1, rfl⟩ := h
    have h2 := List.find?_some h1
    have h3 := (t.longs p).1 (List.mem_of_find?_eq_some h1)
    simp only [decide_eq_true_eq] at h2
    exact ⟨h3.1, p.1, h3.2.symm, by rw [low_eq, low_eq, h2]⟩
  · rintro ⟨h1, l, h2, h3⟩
    cases h4 : g.longs.find? fun p => p.1.map Chr.toLower = k.map Chr.toLower with
    | none =>
      rw [List.find?_eq_none] at h4
      exact absurd (by simp only [decide_eq_true_eq]; rw [← low_eq, ← low_eq, h3]) (h4 (l, o) ((t.longs (l, o)).2 ⟨h1, h2.symm⟩))
    | some p =>
      have h5 := List.find?_some h4
      have h6 := (t.longs p).1 (List.mem_of_find?_eq_some h4)
      simp only [decide_eq_true_eq] at h5
      rw [Option.map_some, t.oneLong o h1 p.2 h6.1 l p.1 h2 h6.2.symm (by rw [← h3, low_eq, low_eq, h5])]

theorem option_none {α : Type} {x : Option α} {P : α → Prop} (h : ∀ a, x = some a ↔ P a) : x = none ↔ ∀ a, ¬ P a := by
  cases x with
  | none => simp only [true_iff]; intro a ha; cases (h a).2 ha
  | some b => simp only [reduceCtorEq, false_iff]; exact fun k => k b ((h b).1 rfl)

/-- Two options that could be confused. -/
def Clash (o o' : Opt) : Prop := (o.short ≠ 0 ∧ o.short = o'.short) ∨ ∃ l l', o.long = some l ∧ o'.long = some l' ∧ low l = low l'

theorem add_table {g : G} (t : Table g) (o : Opt) :
    (add g o ≠ none ↔ (o.short ≠ 0 ∨ o.long ≠ none) ∧ (o.short ≠ 0 → GoodShort o.short) ∧ (∀ l, o.long = some l → GoodLong l) ∧
      ∀ o' ∈ g.list, ¬ Clash o o') ∧
    ∀ g', add g o = some g' → Table g' ∧ g'.list = g.list ++ [o] ∧ g'.nonopt = g.nonopt := by
  have hs := validShort_iff o.short
  have hl : validLong o.long = true ↔ ∀ l, o.long = some l → GoodLong l := by
    cases e : o.long with
    | none => simp [validLong]
    | some l => rw [validLong_iff]; simp
  have h1 : (getShort g o.short).isSome ↔ ∃ o', o' ∈ g.list ∧ o'.short = o.short ∧ o.short ≠ 0 := by
    rw [Option.isSome_iff_exists]; exact exists_congr fun o' => t.getShort o.short o'
  have h2 : (o.long.bind (Getopt.getLong g)).isSome ↔ ∃ o', o' ∈ g.list ∧ ∃ l l', o.long = some l ∧ o'.long = some l' ∧ low l = low l' := by
    cases e : o.long with
    | none => simp
    | some l =>
      rw [Option.bind_some, Option.isSome_iff_exists]
      exact exists_congr fun o' => by rw [t.getLong l o']; simp
  have hc : ((o.short ≠ 0 ∧ (getShort g o.short).isSome) ∨ (o.long.bind (Getopt.getLong g)).isSome) ↔ ∃ o' ∈ g.list, Clash o o' := by
    rw [h1, h2]
    constructor
    · rintro (⟨a, o', b, c, _⟩ | ⟨o', b, c⟩)
      · exact ⟨o', b, Or.inl ⟨a, c.symm⟩⟩
      · exact ⟨o', b, Or.inr c⟩
    · rintro ⟨o', b, ⟨a, c⟩ | c⟩
      · exact Or.inl ⟨a, o', b, c.symm, a⟩
      · exact Or.inr ⟨o', b, c⟩
  have hv : ((o.short = 0 ∧ o.long = none) ∨ (!validShort o.short) = true ∨ (!validLong o.long) = true) ↔
      ¬ ((o.short ≠ 0 ∨ o.long ≠ none) ∧ (o.short ≠ 0 → GoodShort o.short) ∧ ∀ l, o.long = some l → GoodLong l) := by
    rw [Bool.not_eq_true', Bool.not_eq_true', ← Bool.not_eq_true, ← Bool.not_eq_true, hs, hl]
    by_cases a : o.short = 0 <;> by_cases b : o.long = none <;> by_cases c : GoodShort o.short <;> simp_all
  unfold add append
  by_cases k1 : (o.short = 0 ∧ o.long = none) ∨ (!validShort o.short) = true ∨ (!validLong o.long) = true
  · rw [if_pos k1]
    refine ⟨?_, nofun⟩
    simp only [ne_eq, not_true_eq_false, false_iff]
    exact fun h => hv.1 k1 ⟨h.1, h.2.1, h.2.2.1⟩
  · have k2 := Classical.not_not.1 (mt hv.2 k1)
    rw [if_neg k1]
    by_cases k3 : (o.short ≠ 0 ∧ (Getopt.getShort g o.short).isSome) ∨ (o.long.bind (Getopt.getLong g)).isSome
    · rw [if_pos k3]
      refine ⟨?_, nofun⟩
      obtain ⟨o', a, b⟩ := hc.1 k3
      simp only [ne_eq, not_true_eq_false, false_iff]
      exact fun h => h.2.2.2 o' a b
    · rw [if_neg k3]
      have k4 : ∀ o' ∈ g.list, ¬ Clash o o' := fun o' a b => k3 (hc.2 ⟨o', a, b⟩)
      refine ⟨⟨fun _ => ⟨k2.1, k2.2.1, k2.2.2, k4⟩, fun _ => by simp⟩, ?_⟩
      intro g' e
      cases e
      refine ⟨⟨?_, ?_, ?_, ?_, ?_⟩, rfl, rfl⟩
      · intro p
        by_cases a : o.short = 0
        · rw [if_neg (fun h => h a), t.shorts]
          simp only [List.mem_append, List.mem_singleton]
          constructor
          · exact fun h => ⟨Or.inl h.1, h.2⟩
          · rintro ⟨b | b, c, d⟩
            · exact ⟨b, c, d⟩
            · rw [b] at c; exact absurd (c.trans a) d
        · rw [if_pos a]
          simp only [List.mem_append, List.mem_singleton]
          rw [t.shorts]
          constructor
          · rintro (h | h)
            · exact ⟨Or.inl h.1, h.2⟩
            · subst h; exact ⟨Or.inr rfl, rfl, a⟩
          · rintro ⟨b | b, c, d⟩
            · exact Or.inl ⟨b, c, d⟩
            · exact Or.inr (Prod.ext (by rw [c, b]) b)
      · intro p
        cases e : o.long with
        | none =>
          simp only [List.mem_append, List.mem_singleton]
          rw [t.longs]
          constructor
          · exact fun h => ⟨Or.inl h.1, h.2⟩
          · rintro ⟨b | b, c⟩
            · exact ⟨b, c⟩
            · rw [b, e] at c; cases c
        | some l =>
          simp only [List.mem_append, List.mem_singleton]
          rw [t.longs]
          constructor
          · rintro (h | h)
            · exact ⟨Or.inl h.1, h.2⟩
            · subst h; exact ⟨Or.inr rfl, e.symm⟩
          · rintro ⟨b | b, c⟩
            · exact Or.inl ⟨b, c⟩
            · exact Or.inr (Prod.ext (by rw [b, e] at c; exact Option.some.inj c) b)
      · intro o' ho'
        rcases List.mem_append.1 ho' with h | h
        · exact t.good o' h
        · cases List.mem_singleton.1 h
          refine ⟨?_, k2.2.2⟩
          by_cases a : o.short = 0
          · exact Or.inl a
          · exact Or.inr (k2.2.1 a)
      · intro a ha b hb h0 he
        rcases List.mem_append.1 ha with h | h <;> rcases List.mem_append.1 hb with k | k
        · exact t.one a h b k h0 he
        · cases List.mem_singleton.1 k
          exact absurd (Or.inl ⟨by rw [← he]; exact h0, he.symm⟩) (k4 a h)
        · cases List.mem_singleton.1 h
          exact absurd (Or.inl ⟨h0, he⟩) (k4 b k)
        · rw [List.mem_singleton.1 h, List.mem_singleton.1 k]
      · intro a ha b hb l l' h0 h1 he
        rcases List.mem_append.1 ha with h | h <;> rcases List.mem_append.1 hb with k | k
        · exact t.oneLong a h b k l l' h0 h1 he
        · cases List.mem_singleton.1 k
          exact absurd (Or.inr ⟨l', l, h1, h0, he.symm⟩) (k4 a h)
        · cases List.mem_singleton.1 h
          exact absurd (Or.inr ⟨l, l', h0, h1, he⟩) (k4 b k)
        · rw [List.mem_singleton.1 h, List.mem_singleton.1 k]

theorem Made.table {g : G} (h : Made g) : Table g := by
  induction h with
  | create n => exact ⟨by simp [Getopt.create], by simp [Getopt.create], by simp [Getopt.create], by simp [Getopt.create], by simp [Getopt.create]⟩
  | add _ e ih => exact ((add_table ih _).2 _ e).1

end Verif.Getopt
