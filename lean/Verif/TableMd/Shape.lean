import Verif.TableMd.Lemmas

/-!
# The lines that are written
-/

namespace Verif.TableMd
open Verif Verif.Table
open Verif.Parser.Scan (join)

/-- A padded cell. -/
structure Cell (q c : Bytes) : Prop where
  pad : ∃ k, q = c ++ List.replicate k 32
  tight : Tight c
  pipe : (124 : UInt8) ∉ c
  nl : (10 : UInt8) ∉ c

theorem blank_replicate (k : Nat) : Blank (List.replicate k 32) := by
  intro c hc
  rw [(List.mem_replicate.mp hc).2]
  decide

theorem Cell.noPipe {q c : Bytes} (h : Cell q c) : (124 : UInt8) ∉ q := by
  obtain ⟨k, rfl⟩ := h.pad
  intro hm
  rcases List.mem_append.mp hm with hm | hm
  · exact h.pipe hm
  · have := (List.mem_replicate.mp hm).2
    revert this
    decide

theorem Cell.noNl {q c : Bytes} (h : Cell q c) : (10 : UInt8) ∉ q := by
  obtain ⟨k, rfl⟩ := h.pad
  intro hm
  rcases List.mem_append.mp hm with hm | hm
  · exact h.nl hm
  · have := (List.mem_replicate.mp hm).2
    revert this
    decide

theorem Cell.noCr {q c : Bytes} (h : Cell q c) : q.getLast? ≠ some 13 := by
  obtain ⟨k, rfl⟩ := h.pad
  intro e
  rw [List.getLast?_append] at e
  cases k with
  | zero =>
    have e : c.getLast? = some 13 := by simpa using e
    have := h.tight.2 13 e
    revert this
    decide
  | succ k =>
    rw [List.getLast?_replicate] at e
    simp at e

theorem Cell.trim {q c : Bytes} (h : Cell q c) {u w : Bytes} (hu : Blank u) (hw : Blank w) : trim (u ++ (q ++ w)) = c := by
  obtain ⟨k, rfl⟩ := h.pad
  rw [List.append_assoc]
  refine trim_eq hu h.tight ?_
  intro x hx
  rcases List.mem_append.mp hx with hx | hx
  · exact blank_replicate k x hx
  · exact hw x hx

theorem Cell.rtrim {q c : Bytes} (h : Cell q c) {u : Bytes} (hu : Blank u) : TableMd.trim (TableMd.rtrim (u ++ q)) = c := by
  obtain ⟨k, rfl⟩ := h.pad
  exact blank_pad h.tight hu (blank_replicate k)

inductive Cells : List Bytes → List Bytes → Prop
  | nil : Cells [] []
  | cons {q c : Bytes} {qs cs : List Bytes} : Cell q c → Cells qs cs → Cells (q :: qs) (c :: cs)

/-- What may happen to the end of a line. -/
structure End (f : Bytes → Bytes) : Prop where
  pipe : ∀ a y, f (a ++ 124 :: y) = a ++ 124 :: f y
  cell : ∀ {q c u}, Cell q c → Blank u → trim (f (u ++ q)) = c
  sub : ∀ {d : UInt8} {y}, d ≠ 32 → d ∈ f y → d ∈ y

theorem rtrim_pipe (a y : Bytes) : rtrim (a ++ 124 :: y) = a ++ 124 :: rtrim y := by
  by_cases h : rtrim y = []
  · obtain ⟨w, e, hw⟩ := rtrim_split y
    rw [h, List.nil_append] at e
    rw [h, e, show a ++ 124 :: w = (a ++ [124]) ++ w by simp, rtrim_blank _ hw]
    refine rtrim_tight fun c hc => ?_
    rw [List.getLast?_concat] at hc
    cases hc
    decide
  · rw [show a ++ 124 :: y = (a ++ [124]) ++ y by simp, rtrim_append _ h]
    simp

theorem end_id : End id where
  pipe _ _ := rfl
  cell h hu := by
    have := h.trim hu (w := []) (by intro x hx; simp at hx)
    rw [List.append_nil] at this
    exact this
  sub _ h := h

theorem end_rtrim : End rtrim where
  pipe := rtrim_pipe
  cell h hu := h.rtrim hu
  sub {d y} _ h := by
    obtain ⟨w, e, _⟩ := rtrim_split y
    rw [e]
    exact List.mem_append.mpr (.inl h)

theorem end_space : End (· ++ [32]) where
  pipe a y := by simp
  cell {q c u} h hu := by
    have := h.trim hu (w := [32]) (by intro x hx; rw [List.mem_singleton.mp hx]; decide)
    rw [← List.append_assoc] at this
    exact this
  sub {d y} hd h := by
    rcases List.mem_append.mp h with h | h
    · exact h
    · exact absurd (List.mem_singleton.mp h) hd

/-- The sections after the first. -/
def secs (f : Bytes → Bytes) : List Bytes → List Bytes
  | [] => []
  | [q] => [f (32 :: q)]
  | q :: qs => (32 :: q ++ [32]) :: secs f qs

theorem secs_ne (f : Bytes → Bytes) {qs : List Bytes} (h : qs ≠ []) : secs f qs ≠ [] := by
  cases qs with
  | nil => exact absurd rfl h
  | cons q qs => cases qs <;> simp [secs]

theorem secs_join {f : Bytes → Bytes} (hf : End f) : ∀ {qs : List Bytes}, qs ≠ [] →
    join [124] (secs f qs) = f (32 :: join [32, 124, 32] qs)
  | [], h => absurd rfl h
  | [q], _ => rfl
  | q :: p :: qs, _ => by
    have ih := secs_join hf (qs := p :: qs) (by simp)
    have hne := secs_ne f (qs := p :: qs) (by simp)
    have e : join [124] ((32 :: q ++ [32]) :: secs f (p :: qs)) = (32 :: q ++ [32]) ++ [124] ++ join [124] (secs f (p :: qs)) := by
      cases hs : secs f (p :: qs) with
      | nil => exact absurd hs hne
      | cons => rfl
    show join [124] ((32 :: q ++ [32]) :: secs f (p :: qs)) = f (32 :: (q ++ [32, 124, 32] ++ join [32, 124, 32] (p :: qs)))
    rw [e, ih]
    have := hf.pipe (32 :: q ++ [32]) (32 :: join [32, 124, 32] (p :: qs))
    rw [show 32 :: (q ++ [32, 124, 32] ++ join [32, 124, 32] (p :: qs)) =
      (32 :: q ++ [32]) ++ 124 :: (32 :: join [32, 124, 32] (p :: qs)) by simp, this]
    simp

theorem blank32 : Blank [32] := by intro x hx; rw [List.mem_singleton.mp hx]; decide

theorem secs_trim {f : Bytes → Bytes} (hf : End f) : ∀ {qs cs : List Bytes}, Cells qs cs → (secs f qs).map trim = cs
  | _, _, .nil => rfl
  | _, _, .cons (q := q) (c := c) h .nil => by
    show [trim (f ([32] ++ q))] = [c]
    rw [hf.cell h blank32]
  | _, _, .cons (q := q) (c := c) h (.cons (q := p) (c := d) (qs := qs) (cs := cs) h2 t) => by
    have ih := secs_trim hf (.cons h2 t)
    show trim ([32] ++ (q ++ [32])) :: (secs f (p :: qs)).map trim = _
    rw [ih, h.trim blank32 blank32]

theorem secs_pipe {f : Bytes → Bytes} (hf : End f) : ∀ {qs cs : List Bytes}, Cells qs cs → ∀ p ∈ secs f qs, (124 : UInt8) ∉ p
  | _, _, .nil, p, hp => by simp [secs] at hp
  | _, _, .cons (q := q) h .nil, p, hp => by
    rw [secs, List.mem_singleton] at hp
    subst hp
    intro hm
    have := hf.sub (by decide) hm
    rcases List.mem_cons.mp this with e | e
    · revert e; decide
    · exact h.noPipe e
  | _, _, .cons (q := q) h (.cons (q := r) (qs := qs) h2 t), p, hp => by
    have ih := secs_pipe hf (.cons h2 t)
    have hp : p ∈ (32 :: q ++ [32]) :: secs f (r :: qs) := hp
    rcases List.mem_cons.mp hp with rfl | hp
    · intro hm
      have := h.noPipe
      simp only [List.mem_cons, List.mem_append, List.mem_nil_iff, or_false, List.cons_append] at hm
      rcases hm with e | e | e
      · revert e; decide
      · exact this e
      · revert e; decide
    · exact ih p hp

theorem join_noCr : ∀ {qs cs : List Bytes}, Cells qs cs → (join [32, 124, 32] qs).getLast? ≠ some 13
  | _, _, .nil => by simp [join]
  | _, _, .cons h .nil => h.noCr
  | _, _, .cons (q := q) h (.cons (q := r) (qs := qs) h2 t) => by
    have ih := join_noCr (.cons h2 t)
    show (q ++ [32, 124, 32] ++ join [32, 124, 32] (r :: qs)).getLast? ≠ some 13
    rw [List.getLast?_append]
    cases e : (join [32, 124, 32] (r :: qs)).getLast? with
    | none => simp
    | some x =>
      rw [e] at ih
      simpa using ih

theorem join_noNl : ∀ {qs cs : List Bytes}, Cells qs cs → (10 : UInt8) ∉ join [32, 124, 32] qs
  | _, _, .nil => by simp [join]
  | _, _, .cons h .nil => h.noNl
  | _, _, .cons (q := q) h (.cons (q := r) (qs := qs) h2 t) => by
    have ih := join_noNl (.cons h2 t)
    show (10 : UInt8) ∉ (q ++ [32, 124, 32] ++ join [32, 124, 32] (r :: qs))
    intro hm
    rcases List.mem_append.mp hm with hm | hm
    · rcases List.mem_append.mp hm with hm | hm
      · exact h.noNl hm
      · revert hm; decide
    · exact ih hm

/-- The lines as written. -/
theorem line_eq (fl : MFlags) {qs : List Bytes} (h : qs ≠ []) :
    line fl qs = if fl.outer then 124 :: (32 :: join [32, 124, 32] qs ++ [32] ++ [124]) else join [32, 124, 32] qs := by
  have hf : ∀ {qs : List Bytes}, qs ≠ [] → qs.flatMap (· ++ [32, 124, 32]) = join [32, 124, 32] qs ++ [32, 124, 32] := by
    intro qs
    induction qs with
    | nil => intro h; exact absurd rfl h
    | cons q qs ih =>
      intro _
      cases qs with
      | nil => simp [join]
      | cons p qs =>
        rw [List.flatMap_cons, ih (by simp)]
        show _ = (q ++ [32, 124, 32] ++ join [32, 124, 32] (p :: qs)) ++ _
        simp
  unfold line
  rw [hf h]
  cases fl.outer with
  | true =>
    simp only [if_true]
    rw [show [124, 32] ++ (join [32, 124, 32] qs ++ [32, 124, 32]) = (124 :: (32 :: join [32, 124, 32] qs ++ [32] ++ [124])) ++ [32] by simp,
      List.length_append, List.length_singleton, Nat.add_sub_cancel, List.take_left]
  | false =>
    simp only [Bool.false_eq_true, if_false, List.nil_append]
    rw [show join [32, 124, 32] qs ++ [32, 124, 32] = (join [32, 124, 32] qs ++ [32, 124]) ++ [32] by simp,
      List.length_append (bs := [32]), List.length_singleton, Nat.add_sub_cancel, List.take_left,
      List.length_append, show ([32, 124] : Bytes).length = 2 from rfl, Nat.add_sub_cancel, List.take_left]

/-- A line read back, also if blanks at its end are lost. -/
theorem line_reads (fl : MFlags) {qs cs : List Bytes} (h : Cells qs cs) (h0 : qs ≠ []) (h1 : fl.outer = false → ∀ c, cs = [c] → c ≠ [])
    {f : Bytes → Bytes} (hf : f = id ∨ f = rtrim) : Reads (f (line fl qs)) cs := by
  rw [line_eq fl h0]
  revert h1
  have hE : End f := by rcases hf with rfl | rfl; exact end_id; exact end_rtrim
  cases fl.outer with
  | true =>
    intro _
    simp only [if_true]
    have hs := secs_join end_space h0
    have hj : join [124] (secs (· ++ [32]) qs ++ [[]]) = 32 :: join [32, 124, 32] qs ++ [32] ++ [124] := by
      rw [join_append _ _ _ (secs_ne _ h0), hs]
    have he : f (124 :: (32 :: join [32, 124, 32] qs ++ [32] ++ [124])) = 124 :: (32 :: join [32, 124, 32] qs ++ [32] ++ [124]) := by
      rcases hf with rfl | rfl
      · rfl
      · refine rtrim_tight fun c hc => ?_
        rw [← List.cons_append, List.getLast?_concat] at hc
        cases hc
        decide
    rw [he, ← hj]
    refine ⟨[124], _, rfl, .inl rfl, by simp, ?_, .inr ⟨_, rfl, secs_trim end_space h⟩, ?_, ?_⟩
    · intro p hp
      rcases List.mem_append.mp hp with hp | hp
      · exact secs_pipe end_space h p hp
      · rw [List.mem_singleton.mp hp]; simp
    · rw [hj]; simp
    · rw [hj, List.getLast?_concat]; decide
  | false =>
    intro h1
    replace h1 := h1 rfl
    simp only [Bool.false_eq_true, if_false]
    have hcr : (f (join [32, 124, 32] qs)).getLast? ≠ some 13 := by
      rcases hf with rfl | rfl
      · exact join_noCr h
      · intro e
        have := rtrim_last _ _ e
        revert this
        decide
    cases h with
    | nil => exact absurd rfl h0
    | cons hq t =>
      rename_i q c qs cs
      cases t with
      | nil =>
        have hc : c ≠ [] := h1 c rfl
        have e1 : trim (f q) = c := hE.cell hq (u := []) (by intro x hx; simp at hx)
        have hp : (124 : UInt8) ∉ f q := fun hm => hq.noPipe (hE.sub (by decide) hm)
        have hne : f q ≠ [] := by
          intro e
          rw [e] at e1
          exact hc e1.symm
        refine ⟨[], [f q], rfl, .inr ⟨rfl, ?_⟩, by simp, ?_, .inl (by rw [List.map_singleton, e1]), hne, hcr⟩
        · intro e
          exact hp (List.mem_of_head? e)
        · intro p hp'
          rw [List.mem_singleton.mp hp']
          exact hp
      | cons h2 t =>
        rename_i r d qs cs
        have hs := secs_join hE (qs := r :: qs) (by simp)
        have hj : f (join [32, 124, 32] (q :: r :: qs)) = join [124] ((q ++ [32]) :: secs f (r :: qs)) := by
          have e : join [124] ((q ++ [32]) :: secs f (r :: qs)) = (q ++ [32]) ++ [124] ++ join [124] (secs f (r :: qs)) := by
            cases hs : secs f (r :: qs) with
            | nil => exact absurd hs (secs_ne f (by simp))
            | cons => rfl
          rw [e, hs]
          show f (q ++ [32, 124, 32] ++ join [32, 124, 32] (r :: qs)) = _
          rw [show q ++ [32, 124, 32] ++ join [32, 124, 32] (r :: qs) = (q ++ [32]) ++ 124 :: (32 :: join [32, 124, 32] (r :: qs)) by simp,
            hE.pipe]
          simp
        have hform : f (join [32, 124, 32] (q :: r :: qs)) = q ++ 32 :: 124 :: f (32 :: join [32, 124, 32] (r :: qs)) := by
          show f (q ++ [32, 124, 32] ++ join [32, 124, 32] (r :: qs)) = _
          rw [show q ++ [32, 124, 32] ++ join [32, 124, 32] (r :: qs) = (q ++ [32]) ++ 124 :: (32 :: join [32, 124, 32] (r :: qs)) by simp,
            hE.pipe]
          simp
        refine ⟨[], (q ++ [32]) :: secs f (r :: qs), by rw [hj]; rfl, .inr ⟨rfl, ?_⟩, by simp, ?_, .inl ?_, ?_, ?_⟩
        · rw [hform]
          intro e
          cases q with
          | nil => simp at e
          | cons x q =>
            have : x = 124 := by simpa using e
            exact hq.noPipe (by rw [this]; simp)
        · intro p hp
          rcases List.mem_cons.mp hp with rfl | hp
          · intro hm
            rcases List.mem_append.mp hm with hm | hm
            · exact hq.noPipe hm
            · revert hm; decide
          · exact secs_pipe hE (.cons h2 t) p hp
        · rw [List.map_cons, secs_trim hE (.cons h2 t)]
          have := hq.trim (u := []) (w := [32]) (by intro x hx; simp at hx) blank32
          rw [List.nil_append] at this
          rw [this]
        · rw [← hj, hform]; simp
        · rw [← hj]; exact hcr

end Verif.TableMd
