import Verif.ThreadLocal.Spec
/- The invariants. -/
namespace Verif.ThreadLocal

/-! ## Tables -/

theorem slook_cons (p : Nat × TVal) (st : Store) (k : Nat) : slook (p :: st) k = if p.1 = k then some p.2 else slook st k := by
  unfold slook
  rw [List.find?_cons]
  by_cases h : p.1 = k <;> simp [h]

theorem slook_sdel (st : Store) (k k' : Nat) : slook (sdel st k) k' = if k' = k then none else slook st k' := by
  induction st with
  | nil => simp [sdel, slook]
  | cons p st ih =>
    unfold sdel at ih ⊢
    rw [List.filter_cons]
    by_cases h : p.1 = k
    · rw [if_neg (by simpa using h), ih, slook_cons]
      by_cases h' : k' = k
      · simp [h']
      · rw [if_neg h', if_neg h', if_neg (by rw [h]; exact fun e => h' e.symm)]
    · rw [if_pos (by simpa using h), slook_cons, ih, slook_cons]
      by_cases h' : k' = k
      · subst h'; simp [h]
      · simp [h']

theorem slook_sins (st : Store) (k k' : Nat) (v : TVal) : slook (sins st k v) k' = if k' = k then some v else slook st k' := by
  unfold sins
  rw [slook_cons, slook_sdel]
  by_cases h : k' = k
  · subst h; simp
  · rw [if_neg (fun e => h e.symm), if_neg h, if_neg h]

theorem slook_mem {st : Store} {k : Nat} {v : TVal} (h : slook st k = some v) : (k, v) ∈ st := by
  induction st with
  | nil => simp [slook] at h
  | cons p st ih =>
    rw [slook_cons] at h
    by_cases e : p.1 = k
    · rw [if_pos e] at h; cases h; subst e; simp
    · rw [if_neg e] at h; simp [ih h]

theorem slook_none {st : Store} (h : ∀ k, slook st k = none) : st = [] := by
  cases st with
  | nil => rfl
  | cons p st => have := h p.1; rw [slook_cons, if_pos rfl] at this; cases this

theorem klook_cons (p : Nat × Option Nat) (ks : List (Nat × Option Nat)) (k : Nat) : klook (p :: ks) k = if p.1 = k then some p.2 else klook ks k := by
  unfold klook
  rw [List.find?_cons]
  by_cases h : p.1 = k <;> simp [h]

/-! ## Histories -/

theorem given_append (t k : Nat) (l l' : List Ev) : given t k (l ++ l') = given t k l ++ given t k l' := List.filterMap_append
theorem gone_append (t k : Nat) (l l' : List Ev) : gone t k (l ++ l') = gone t k l ++ gone t k l' := List.filterMap_append

theorem known_append {k : Nat} {d : Option Nat} {l l' : List Ev} : Known k d (l ++ l') ↔ Known k d l ∨ Known k d l' := by
  simp only [Known, List.mem_append]
  constructor
  · rintro ⟨t, h | h⟩
    · exact .inl ⟨t, h⟩
    · exact .inr ⟨t, h⟩
  · rintro (⟨t, h⟩ | ⟨t, h⟩)
    · exact ⟨t, .inl h⟩
    · exact ⟨t, .inr h⟩

/-- The thread of an event. -/
def Ev.thread : Ev → Nat
  | .created t _ _ | .wasSet t _ _ _ | .got t _ _ | .purged t | .destroyed t _ _ _ _ => t

/-- No key is handed out. -/
def Quiet (es : List Ev) : Prop := ∀ k d, ¬ Known k d es

theorem live_other {t : Nat} (k : Nat) {es : List Ev} (h : ∀ e ∈ es, e.thread ≠ t) (l : List Ev) : live t k (l ++ es) = live t k l := by
  unfold live
  rw [List.foldl_append]
  generalize List.foldl _ none l = c
  induction es generalizing c with
  | nil => rfl
  | cons e es ih =>
    have he := h e (by simp)
    rw [List.foldl_cons]
    have ih := fun c => ih (fun e h' => h e (by simp [h'])) c
    rw [ih]
    cases e with
    | wasSet u key v ok => cases ok <;> simp only [Ev.thread] at he <;> simp [he]
    | purged u => simp only [Ev.thread] at he; simp [he]
    | created => rfl
    | got => rfl
    | destroyed => rfl

theorem given_other {t : Nat} (k : Nat) {es : List Ev} (h : ∀ e ∈ es, e.thread ≠ t) : given t k es = [] := by
  unfold given
  rw [List.filterMap_eq_nil_iff]
  intro e he
  have := h e he
  cases e with
  | wasSet u key v ok => cases ok <;> simp only [Ev.thread] at this <;> simp [this]
  | _ => rfl

theorem gone_other {t : Nat} (k : Nat) {es : List Ev} (h : ∀ e ∈ es, e.thread ≠ t) : gone t k es = [] := by
  unfold gone
  rw [List.filterMap_eq_nil_iff]
  intro e he
  have := h e he
  cases e with
  | destroyed u key d v b => simp only [Ev.thread] at this; simp [this]
  | _ => rfl

/-- What a destructor leaves in the history. -/
theorem live_keep {t : Nat} (k : Nat) {es : List Ev} (h : ∀ e ∈ es, (∃ u q v, e = .got u q v) ∨ (∃ u q d v b, e = .destroyed u q d v b) ∨ (∃ u i d, e = .created u i d) ∨ (∃ u q v, e = .wasSet u q v false)) (l : List Ev) :
    live t k (l ++ es) = live t k l := by
  unfold live
  rw [List.foldl_append]
  generalize List.foldl _ none l = c
  induction es generalizing c with
  | nil => rfl
  | cons e es ih =>
    rw [List.foldl_cons, ih (fun e h' => h e (by simp [h']))]
    rcases h e (by simp) with ⟨_, _, _, rfl⟩ | ⟨_, _, _, _, _, rfl⟩ | ⟨_, _, _, rfl⟩ | ⟨_, _, _, rfl⟩ <;> rfl

theorem live_set (t k key v : Nat) (l : List Ev) : live t k (l ++ [.wasSet t key v true]) = if key = k then some v else live t k l := by
  unfold live
  rw [List.foldl_append]
  simp

theorem live_purged (t k : Nat) (l : List Ev) : live t k (l ++ [.purged t]) = none := by
  unfold live
  rw [List.foldl_append]
  simp

/-! ## One thread -/

/-- The value of a key in a table. -/
def valOf (st : Store) (k : Nat) : Option Nat := (slook st k).map (·.val)

/-- What holds of a thread, its table and its place. -/
structure B (t : Nat) (st : Store) (pc : Pc) (log : List Ev) : Prop where
  known : ∀ k v, slook st k = some v → Known k v.destr log
  key2 : ∀ k v d, pc = .set2 k v d → Known k d log
  key3 : ∀ k v d, pc = .set3 k v d → Known k d log
  same : (pc = .idle ∨ (∃ d i, pc = .create2 d i) ∨ (∃ k v d, pc = .set2 k v d) ∨ (∃ k, pc = .get2 k)) → ∀ k, valOf st k = live t k log
  cleared : ∀ key v d, pc = .set3 key v d → ∀ k, valOf st k = if k = key ∧ v = 0 then none else live t k log
  count : ∀ k d, Known k (some d) log → given t k log = gone t k log ++ (valOf st k).toList
  quiet : ∀ k, (∀ d, ¬ Known k (some d) log) → gone t k log = []
  fresh : ∀ k, (∀ d, ¬ Known k d log) → given t k log = []
  left : ∀ ks, pc = .purge3 ks → ∀ k, (slook st k).isSome = true → k ∈ ks

theorem b_init (t : Nat) : B t [] .idle [] := by
  constructor <;> simp [slook, valOf, live, given, gone, Known]

theorem known_quiet {k : Nat} {d : Option Nat} {l es : List Ev} (h : Quiet es) : Known k d (l ++ es) ↔ Known k d l := by
  rw [known_append]
  exact ⟨fun x => x.elim id (fun y => absurd y (h k d)), .inl⟩

/-- Other threads do not matter. -/
theorem B.other {t : Nat} {st : Store} {pc : Pc} {l es : List Ev} (h : B t st pc l) (hq : Quiet es) (ho : ∀ e ∈ es, e.thread ≠ t) : B t st pc (l ++ es) where
  known k v e := (known_quiet hq).2 (h.known k v e)
  key2 k v d e := (known_quiet hq).2 (h.key2 k v d e)
  key3 k v d e := (known_quiet hq).2 (h.key3 k v d e)
  same p k := by rw [live_other k ho]; exact h.same p k
  cleared key v d p k := by rw [live_other k ho]; exact h.cleared key v d p k
  count k d e := by
    rw [given_append, gone_append, given_other k ho, gone_other k ho, List.append_nil, List.append_nil]
    exact h.count k d ((known_quiet hq).1 e)
  quiet k e := by
    rw [gone_append, gone_other k ho, List.append_nil]
    exact h.quiet k fun d x => e d ((known_quiet hq).2 x)
  fresh k e := by
    rw [given_append, given_other k ho, List.append_nil]
    exact h.fresh k fun d x => e d ((known_quiet hq).2 x)
  left := h.left

theorem known_created {k i u : Nat} {d d' : Option Nat} {l : List Ev} : Known k d (l ++ [.created u i d']) ↔ Known k d l ∨ (k = i ∧ d = d') := by
  rw [known_append]
  constructor
  · rintro (h | ⟨t, h⟩)
    · exact .inl h
    · simp only [List.mem_singleton, Ev.created.injEq] at h
      exact .inr ⟨h.2.1, h.2.2⟩
  · rintro (h | ⟨rfl, rfl⟩)
    · exact .inl h
    · exact .inr ⟨u, by simp⟩

/-- A new key does not matter. -/
theorem B.created {t u i : Nat} {d : Option Nat} {st : Store} {pc : Pc} {l : List Ev} (h : B t st pc l) (hn : ∀ d, ¬ Known i d l) : B t st pc (l ++ [.created u i d]) where
  known k v e := known_created.2 (.inl (h.known k v e))
  key2 k v d e := known_created.2 (.inl (h.key2 k v d e))
  key3 k v d e := known_created.2 (.inl (h.key3 k v d e))
  same p k := by rw [live_keep k (by intro e he; simp at he; subst he; exact .inr (.inr (.inl ⟨_, _, _, rfl⟩)))]; exact h.same p k
  cleared key v d p k := by rw [live_keep k (by intro e he; simp at he; subst he; exact .inr (.inr (.inl ⟨_, _, _, rfl⟩)))]; exact h.cleared key v d p k
  count k d' e := by
    have e1 : given t k [.created u i d] = [] := rfl
    have e2 : gone t k [.created u i d] = [] := rfl
    rw [given_append, gone_append, e1, e2, List.append_nil, List.append_nil]
    rcases known_created.1 e with e | ⟨rfl, _⟩
    · exact h.count k d' e
    · rw [h.fresh k hn, h.quiet k (fun d => hn _)]
      have : slook st k = none := by
        cases hs : slook st k with
        | none => rfl
        | some v => exact absurd (h.known k v hs) (hn _)
      simp [valOf, this]
  quiet k e := by
    have e2 : gone t k [.created u i d] = [] := rfl
    rw [gone_append, e2, List.append_nil]
    exact h.quiet k fun d x => e d (known_created.2 (.inl x))
  fresh k e := by
    have e2 : given t k [.created u i d] = [] := rfl
    rw [given_append, e2, List.append_nil]
    exact h.fresh k fun d x => e d (known_created.2 (.inl x))
  left := h.left

/-- Moving on without a change. -/
theorem B.move {t : Nat} {st : Store} {pc pc' : Pc} {l : List Ev} (h : B t st pc l)
    (h2 : ∀ k v d, pc' = .set2 k v d → Known k d l) (h3 : ∀ k v d, pc' = .set3 k v d → Known k d l)
    (hs : ∀ k, (pc' = .idle ∨ (∃ d i, pc' = .create2 d i) ∨ (∃ k v d, pc' = .set2 k v d) ∨ (∃ k, pc' = .get2 k)) → valOf st k = live t k l)
    (hc : ∀ key v d, pc' = .set3 key v d → ∀ k, valOf st k = if k = key ∧ v = 0 then none else live t k l)
    (hl : ∀ ks, pc' = .purge3 ks → ∀ k, (slook st k).isSome = true → k ∈ ks) : B t st pc' l :=
  ⟨h.known, h2, h3, fun p k => hs k p, hc, h.count, h.quiet, h.fresh, hl⟩

theorem destroyAt_cases (t k : Nat) (st : Store) : (destroyAt t k st = [] ∧ (slook st k = none ∨ ∃ v, slook st k = some ⟨none, v⟩)) ∨
    ∃ d v, destroyAt t k st = [.destroyed t k d v false] ∧ slook st k = some ⟨some d, v⟩ := by
  unfold destroyAt
  cases h : slook st k with
  | none => exact .inl ⟨rfl, .inl rfl⟩
  | some x =>
    obtain ⟨d, v⟩ := x
    cases d with
    | none => exact .inl ⟨rfl, .inr ⟨v, rfl⟩⟩
    | some d => exact .inr ⟨d, v, rfl, rfl⟩

theorem destroyAt_quiet (t k : Nat) (st : Store) : Quiet (destroyAt t k st) := by
  intro k' d ⟨u, hu⟩
  rcases destroyAt_cases t k st with ⟨h, _⟩ | ⟨d, v, h, _⟩ <;> rw [h] at hu <;> simp at hu

theorem destroyAt_live (t k key : Nat) (st : Store) (l : List Ev) : live t k (l ++ destroyAt t key st) = live t k l := by
  apply live_keep
  intro e he
  rcases destroyAt_cases t key st with ⟨h, _⟩ | ⟨d, v, h, _⟩ <;> rw [h] at he <;> simp at he
  subst he
  exact .inr (.inl ⟨_, _, _, _, _, rfl⟩)

/-- An entry is removed. -/
theorem B.del {t : Nat} {st : Store} {pc pc' : Pc} {l : List Ev} (h : B t st pc l) (key : Nat) (uniq : ∀ k d d', Known k d l → Known k d' l → d = d')
    (h3 : ∀ k v d, pc' = .set3 k v d → Known k d l)
    (hs : ¬ (pc' = .idle ∨ (∃ d i, pc' = .create2 d i) ∨ (∃ k v d, pc' = .set2 k v d) ∨ (∃ k, pc' = .get2 k)))
    (hc : ∀ key' v d, pc' = .set3 key' v d → ∀ k, valOf (sdel st key) k = if k = key' ∧ v = 0 then none else live t k l)
    (hl : ∀ ks, pc' = .purge3 ks → ∀ k, (slook (sdel st key) k).isSome = true → k ∈ ks) : B t (sdel st key) pc' (l ++ destroyAt t key st) := by
  have hq := destroyAt_quiet t key st
  have hgv : ∀ k, given t k (destroyAt t key st) = [] := by
    intro k
    rcases destroyAt_cases t key st with ⟨e, _⟩ | ⟨d, v, e, _⟩ <;> rw [e] <;> rfl
  refine ⟨?_, ?_, ?_, fun p => absurd p hs, ?_, ?_, ?_, ?_, hl⟩
  · intro k v e
    rw [slook_sdel] at e
    split at e
    · cases e
    · exact (known_quiet hq).2 (h.known k v e)
  · intro k v d e
    exact absurd (.inr (.inr (.inl ⟨k, v, d, e⟩))) hs
  · intro k v d e
    exact (known_quiet hq).2 (h3 k v d e)
  · intro key' v d e k
    rw [destroyAt_live]
    exact hc key' v d e k
  · intro k d e
    replace e := (known_quiet hq).1 e
    rw [given_append, gone_append, hgv, List.append_nil, h.count k d e]
    unfold valOf
    rw [slook_sdel]
    by_cases hk : k = key
    · subst hk
      rw [if_pos rfl]
      rcases destroyAt_cases t k st with ⟨e1, e2 | ⟨v, e2⟩⟩ | ⟨d', v, e1, e2⟩
      · rw [e1, e2]; simp [gone]
      · have := uniq k _ _ (h.known k _ e2) e
        cases this
      · rw [e1, e2]; simp [gone]
    · rw [if_neg hk]
      have : gone t k (destroyAt t key st) = [] := by
        rcases destroyAt_cases t key st with ⟨e1, _⟩ | ⟨d', v, e1, e2⟩
        · rw [e1]; rfl
        · rw [e1]; simp [gone]; exact fun e => hk e.symm
      rw [this, List.append_nil]
  · intro k e
    have e : ∀ d, ¬ Known k (some d) l := fun d x => e d ((known_quiet hq).2 x)
    rw [gone_append, h.quiet k e, List.nil_append]
    rcases destroyAt_cases t key st with ⟨e1, _⟩ | ⟨d', v, e1, e2⟩
    · rw [e1]; rfl
    · rw [e1]
      have : key ≠ k := by
        rintro rfl
        exact e _ (h.known key _ e2)
      simp [gone, this]
  · intro k e
    rw [given_append, hgv, List.append_nil]
    exact h.fresh k fun d x => e d ((known_quiet hq).2 x)

/-- The last step of setting a value. -/
theorem B.ins {t : Nat} {st : Store} {l : List Ev} {key v : Nat} {d : Option Nat} (h : B t st (.set3 key v d) l) (uniq : ∀ k d d', Known k d l → Known k d' l → d = d') :
    B t (sins st key ⟨d, v⟩) .idle (l ++ (destroyAt t key st ++ [.wasSet t key v true])) := by
  have hq : Quiet (destroyAt t key st ++ [.wasSet t key v true]) := by
    intro k d hk
    rcases known_append.1 hk with hk | ⟨u, hu⟩
    · exact destroyAt_quiet t key st k d hk
    · simp at hu
  have hkey := h.key3 key v d rfl
  have hgv : ∀ k, given t k (destroyAt t key st ++ [.wasSet t key v true]) = if key = k then [v] else [] := by
    intro k
    rw [given_append]
    have : given t k (destroyAt t key st) = [] := by
      rcases destroyAt_cases t key st with ⟨e, _⟩ | ⟨d, v, e, _⟩ <;> rw [e] <;> rfl
    rw [this]
    by_cases hk : key = k <;> simp [given, hk]
  have hgo : ∀ k, gone t k (destroyAt t key st ++ [.wasSet t key v true]) = gone t k (destroyAt t key st) := by
    intro k
    rw [gone_append]
    simp [gone]
  refine ⟨?_, ?_, ?_, ?_, ?_, ?_, ?_, ?_, ?_⟩
  · intro k x e
    rw [slook_sins] at e
    split at e
    · rename_i hk
      cases e; subst hk
      exact (known_quiet hq).2 hkey
    · exact (known_quiet hq).2 (h.known k x e)
  · intro _ _ _ e; cases e
  · intro _ _ _ e; cases e
  · intro _ k
    rw [← List.append_assoc, live_set, destroyAt_live]
    unfold valOf
    rw [slook_sins]
    by_cases hk : k = key
    · subst hk; simp
    · rw [if_neg hk, if_neg (fun e => hk e.symm)]
      have := h.cleared key v d rfl k
      rw [if_neg (fun e => hk e.1)] at this
      exact this
  · intro _ _ _ e; cases e
  · intro k d' e
    replace e := (known_quiet hq).1 e
    rw [given_append, gone_append, hgv, hgo, h.count k d' e]
    unfold valOf
    rw [slook_sins]
    by_cases hk : k = key
    · subst hk
      rw [if_pos rfl, if_pos rfl]
      rcases destroyAt_cases t k st with ⟨e1, e2 | ⟨x, e2⟩⟩ | ⟨d', x, e1, e2⟩
      · rw [e1, e2]; simp [gone]
      · have := uniq k _ _ (h.known k _ e2) e
        cases this
      · rw [e1, e2]; simp [gone]
    · rw [if_neg hk, if_neg (fun e => hk e.symm)]
      have : gone t k (destroyAt t key st) = [] := by
        rcases destroyAt_cases t key st with ⟨e1, _⟩ | ⟨d', v, e1, e2⟩
        · rw [e1]; rfl
        · rw [e1]; simp [gone]; exact fun e => hk e.symm
      rw [this]; simp
  · intro k e
    have e : ∀ d, ¬ Known k (some d) l := fun d x => e d ((known_quiet hq).2 x)
    rw [gone_append, h.quiet k e, List.nil_append, hgo]
    rcases destroyAt_cases t key st with ⟨e1, _⟩ | ⟨d', v, e1, e2⟩
    · rw [e1]; rfl
    · rw [e1]
      have : key ≠ k := by
        rintro rfl
        exact e _ (h.known key _ e2)
      simp [gone, this]
  · intro k e
    have e : ∀ d, ¬ Known k d l := fun d x => e d ((known_quiet hq).2 x)
    rw [given_append, h.fresh k e, hgv, if_neg]
    · rfl
    · rintro rfl
      exact e _ hkey
  · intro _ e; cases e

/-- The end of a thread, when its table is empty. -/
theorem B.purged {t : Nat} {st : Store} {pc : Pc} {l : List Ev} (h : B t st pc l) (h0 : st = []) : B t [] .idle (l ++ [.purged t]) := by
  subst h0
  have hq : Quiet [Ev.purged t] := by
    intro k d ⟨u, hu⟩; simp at hu
  have e1 : ∀ k, given t k [Ev.purged t] = [] := fun _ => rfl
  have e2 : ∀ k, gone t k [Ev.purged t] = [] := fun _ => rfl
  refine ⟨?_, ?_, ?_, ?_, ?_, ?_, ?_, ?_, ?_⟩
  · intro k v e; simp [slook] at e
  · intro _ _ _ e; cases e
  · intro _ _ _ e; cases e
  · intro _ k; rw [live_purged]; rfl
  · intro _ _ _ e; cases e
  · intro k d e
    rw [given_append, gone_append, e1, e2, List.append_nil, List.append_nil]
    exact h.count k d ((known_quiet hq).1 e)
  · intro k e
    rw [gone_append, e2, List.append_nil]
    exact h.quiet k fun d x => e d ((known_quiet hq).2 x)
  · intro k e
    rw [given_append, e1, List.append_nil]
    exact h.fresh k fun d x => e d ((known_quiet hq).2 x)
  · intro _ e; cases e

/-- A call that changes nothing returns. -/
theorem B.answer {t : Nat} {st : Store} {pc : Pc} {l : List Ev} (h : B t st pc l) (hp : pc = .idle ∨ ∃ k, pc = .get2 k) (e : Ev) (he : (∃ q v, e = .got t q v) ∨ (∃ q v, e = .wasSet t q v false)) :
    B t st .idle (l ++ [e]) := by
  have hq : Quiet [e] := by
    intro k d ⟨u, hu⟩
    rcases he with ⟨_, _, rfl⟩ | ⟨_, _, rfl⟩ <;> simp at hu
  have e1 : ∀ k, given t k [e] = [] := by
    intro k
    rcases he with ⟨_, _, rfl⟩ | ⟨_, _, rfl⟩ <;> rfl
  have e2 : ∀ k, gone t k [e] = [] := by
    intro k
    rcases he with ⟨_, _, rfl⟩ | ⟨_, _, rfl⟩ <;> rfl
  have e3 : ∀ k, live t k (l ++ [e]) = live t k l := by
    intro k
    apply live_keep
    intro x hx
    simp at hx; subst hx
    rcases he with ⟨_, _, rfl⟩ | ⟨_, _, rfl⟩
    · exact .inl ⟨_, _, _, rfl⟩
    · exact .inr (.inr (.inr ⟨_, _, _, rfl⟩))
  refine ⟨?_, ?_, ?_, ?_, ?_, ?_, ?_, ?_, ?_⟩
  · intro k v e; exact (known_quiet hq).2 (h.known k v e)
  · intro _ _ _ e; cases e
  · intro _ _ _ e; cases e
  · intro _ k
    rw [e3]
    exact h.same (hp.elim .inl fun x => .inr (.inr (.inr x))) k
  · intro _ _ _ e; cases e
  · intro k d e
    rw [given_append, gone_append, e1, e2, List.append_nil, List.append_nil]
    exact h.count k d ((known_quiet hq).1 e)
  · intro k e
    rw [gone_append, e2, List.append_nil]
    exact h.quiet k fun d x => e d ((known_quiet hq).2 x)
  · intro k e
    rw [given_append, e1, List.append_nil]
    exact h.fresh k fun d x => e d ((known_quiet hq).2 x)
  · intro _ e; cases e

end Verif.ThreadLocal
