import Verif.Pipe.Line
/-! Which threads sleep and why. -/
namespace Verif.Pipe

/-- The waiting task of step `k`. -/
def slotAt (steps : List Stp) (k : Nat) : Option (Option Task) := steps[k]?.map Stp.slot

theorem get_signal (j : Nat) (steps : List Stp) (k : Nat) : (signal j steps)[k]? = if j = k then steps[k]?.map wake else steps[k]? := by
  unfold signal
  rw [List.getElem?_modify]
  by_cases h : j = k
  · simp [h]
  · simp [h]

theorem slotAt_signal (j : Nat) (steps : List Stp) (k : Nat) : slotAt (signal j steps) k = slotAt steps k := by
  unfold slotAt
  rw [get_signal]
  split
  · rw [Option.map_map]
    congr 1
    funext a
    exact wake_slot a
  · rfl

theorem slotAt_map (steps : List Stp) (k : Nat) : slotAt (steps.map wake) k = slotAt steps k := by
  unfold slotAt
  rw [List.getElem?_map, Option.map_map]
  congr 1
  funext a
  exact wake_slot a

theorem slotAt_set (steps : List Stp) (i k : Nat) (b : Stp) (h : i ≠ k) : slotAt (steps.set i b) k = slotAt steps k := by
  unfold slotAt
  rw [List.getElem?_set_ne h]

theorem slotAt_set_same {steps : List Stp} {i : Nat} {a b : Stp} (h : steps[i]? = some a) (hs : b.slot = a.slot) (k : Nat) :
    slotAt (steps.set i b) k = slotAt steps k := by
  by_cases e : i = k
  · subst e
    have hl : i < steps.length := by
      apply Classical.byContradiction; intro hn
      rw [List.getElem?_eq_none (by omega)] at h; cases h
    unfold slotAt
    rw [List.getElem?_set_self hl, h]
    simp [hs]
  · exact slotAt_set _ _ _ _ e

theorem lt_of_get {α : Type} {l : List α} {i : Nat} {a : α} (h : l[i]? = some a) : i < l.length := by
  apply Classical.byContradiction; intro hn
  rw [List.getElem?_eq_none (by omega)] at h; cases h

/-- What a step looks like when its thread sleeps or has ended. -/
structure Good (n : Nat) (status : Bool) (queue : List Task) (sl : Nat → Option (Option Task)) (k : Nat) (a : Stp) : Prop where
  sleepF : a.pc = .sleepF → status = true ∧ a.slot = none ∧ (k = 0 → queue = [])
  sleepS : ∀ x, a.pc = .sleepS x → k + 1 < n ∧ (status = true → ∃ y, sl (k + 1) = some (some y))
  wokenS : ∀ x, a.pc = .wokenS x → k + 1 < n
  dead : a.pc = .dead → status = false ∧ a.slot = none ∧ (k = 0 → queue = [])

/-- Awake threads are good. -/
theorem Good.awake {n : Nat} {status : Bool} {queue : List Task} {sl : Nat → Option (Option Task)} {k : Nat} {a : Stp}
    (h : a.pc = .top ∨ (∃ x, a.pc = .run x) ∨ ∃ x ok, a.pc = .ret x ok) : Good n status queue sl k a := by
  rcases h with h | ⟨x, h⟩ | ⟨x, ok, h⟩ <;> constructor <;> intros <;> simp_all

theorem Good.wake {n : Nat} {status status' : Bool} {queue queue' : List Task} {sl sl' : Nat → Option (Option Task)} {k : Nat} {a : Stp}
    (g : Good n status queue sl k a) (hd : a.pc = .dead → status' = false ∧ (k = 0 → queue' = [])) : Good n status' queue' sl' k (wake a) := by
  obtain ⟨pc, slot⟩ := a
  cases pc with
  | sleepF => exact Good.awake (Or.inl rfl)
  | sleepS x =>
    refine ⟨by simp [Verif.Pipe.wake], by simp [Verif.Pipe.wake], ?_, by simp [Verif.Pipe.wake]⟩
    intro y _
    exact (g.sleepS x rfl).1
  | wokenS x =>
    refine ⟨by simp [Verif.Pipe.wake], by simp [Verif.Pipe.wake], ?_, by simp [Verif.Pipe.wake]⟩
    intro y _
    exact g.wokenS x rfl
  | dead =>
    refine ⟨by simp [Verif.Pipe.wake], by simp [Verif.Pipe.wake], by simp [Verif.Pipe.wake], ?_⟩
    intro _
    exact ⟨(hd rfl).1, (g.dead rfl).2.1, (hd rfl).2⟩
  | top => exact Good.awake (Or.inl rfl)
  | run x => exact Good.awake (Or.inr (Or.inl ⟨x, rfl⟩))
  | ret x ok => exact Good.awake (Or.inr (Or.inr ⟨x, ok, rfl⟩))

/-- What a user looks like when sleeping or after the shutdown. -/
structure GoodU (n : Nat) (status : Bool) (cnt : Int) (u : U) : Prop where
  wSleep : ∀ l, u = .wSleep l → cnt > l
  dSleep : u = .dSleep → cnt > 0 ∧ status = false
  dWoken : u = .dWoken → status = false
  dJoin : ∀ i, u = .dJoin i → status = false ∧ cnt ≤ 0 ∧ i < n

/-- The invariant about sleeping threads. -/
structure Live (n : Nat) (s : St) : Prop where
  len : s.steps.length = n
  steps : ∀ (k : Nat) (a : Stp), s.steps[k]? = some a → Good n s.status s.queue (slotAt s.steps) k a
  users : ∀ u ∈ s.us, GoodU n s.status s.cnt u

theorem init_live (b : Bool) (n m : Nat) : Live n (init b n m) := by
  refine ⟨by simp [init], ?_, ?_⟩
  · intro k a h
    simp only [init, List.getElem?_replicate] at h
    split at h
    · cases h; exact Good.awake (Or.inl rfl)
    · cases h
  · intro u hu
    simp only [init, List.mem_replicate] at hu
    obtain ⟨_, rfl⟩ := hu
    constructor <;> simp

theorem Good.congr {n : Nat} {status : Bool} {queue queue' : List Task} {sl sl' : Nat → Option (Option Task)} {k : Nat} {a : Stp}
    (g : Good n status queue sl k a) (h1 : k = 0 → queue = [] → queue' = []) (h2 : sl' (k + 1) = sl (k + 1) ∨ status = false) : Good n status queue' sl' k a := by
  refine ⟨fun h => ?_, fun x h => ?_, g.wokenS, fun h => ?_⟩
  · have := g.sleepF h
    exact ⟨this.1, this.2.1, fun hk => h1 hk (this.2.2 hk)⟩
  · have := g.sleepS x h
    refine ⟨this.1, fun hs => ?_⟩
    rcases h2 with h2 | h2
    · rw [h2]; exact this.2 hs
    · rw [hs] at h2; cases h2
  · have := g.dead h
    exact ⟨this.1, this.2.1, fun hk => h1 hk (this.2.2 hk)⟩

/-- A signal keeps the steps good. -/
theorem good_signal {n : Nat} {status : Bool} {queue : List Task} {steps : List Stp} (j : Nat)
    (g : ∀ (k : Nat) (a : Stp), steps[k]? = some a → Good n status queue (slotAt steps) k a) :
    ∀ (k : Nat) (a : Stp), (signal j steps)[k]? = some a → Good n status queue (slotAt (signal j steps)) k a := by
  intro k a h
  rw [get_signal] at h
  split at h
  · cases e : steps[k]? with
    | none => rw [e] at h; cases h
    | some c =>
      rw [e] at h
      cases h
      exact (g k c e).wake (fun hd => ⟨((g k c e).dead hd).1, ((g k c e).dead hd).2.2⟩)
  · exact (g k a h).congr (fun _ h => h) (Or.inl (slotAt_signal j steps (k + 1)))

theorem good_signalPrev {n : Nat} {status : Bool} {queue : List Task} {steps : List Stp} (j : Nat)
    (g : ∀ (k : Nat) (a : Stp), steps[k]? = some a → Good n status queue (slotAt steps) k a) :
    ∀ (k : Nat) (a : Stp), (signalPrev j steps)[k]? = some a → Good n status queue (slotAt (signalPrev j steps)) k a := by
  unfold signalPrev
  split
  · exact good_signal _ g
  · exact g

/-- A shutdown keeps the steps good. -/
theorem good_down {n : Nat} {status : Bool} {queue : List Task} {steps : List Stp}
    (g : ∀ (k : Nat) (a : Stp), steps[k]? = some a → Good n status queue (slotAt steps) k a) :
    ∀ (k : Nat) (a : Stp), (steps.map wake)[k]? = some a → Good n false queue (slotAt (steps.map wake)) k a := by
  intro k a h
  rw [List.getElem?_map] at h
  cases e : steps[k]? with
  | none => rw [e] at h; cases h
  | some c =>
    rw [e] at h
    cases h
    exact (g k c e).wake (fun hd => ⟨rfl, ((g k c e).dead hd).2.2⟩)

/-- Changing one step. -/
theorem good_set {n : Nat} {status : Bool} {queue queue' : List Task} {steps : List Stp} {i : Nat} {b : Stp}
    (g : ∀ (k : Nat) (a : Stp), steps[k]? = some a → Good n status queue (slotAt steps) k a)
    (hb : Good n status queue' (slotAt (steps.set i b)) i b) (hq : i ≠ 0 → queue = [] → queue' = [])
    (hs : (∀ k, slotAt (steps.set i b) k = slotAt steps k) ∨ status = false) :
    ∀ (k : Nat) (a : Stp), (steps.set i b)[k]? = some a → Good n status queue' (slotAt (steps.set i b)) k a := by
  intro k a h
  by_cases e : i = k
  · subst e
    have hl := lt_of_get h
    rw [List.length_set] at hl
    rw [List.getElem?_set_self hl] at h
    cases h
    exact hb
  · rw [List.getElem?_set_ne e] at h
    refine (g k a h).congr (fun hk => hq (by omega)) ?_
    rcases hs with hs | hs
    · exact Or.inl (hs _)
    · exact Or.inr hs

theorem length_signal (j : Nat) (steps : List Stp) : (signal j steps).length = steps.length := by
  unfold signal; simp

theorem length_signalPrev (j : Nat) (steps : List Stp) : (signalPrev j steps).length = steps.length := by
  unfold signalPrev
  split
  · exact length_signal _ _
  · rfl

theorem fetch_live {n : Nat} {s : St} {k : Nat} {a : Stp} (L : Live n s) (h : s.steps[k]? = some a) (hu : s.status = true) : Live n (fetch s k a) := by
  obtain ⟨len, g, us⟩ := L
  have hl := lt_of_get h
  unfold fetch
  split
  · rename_i x hx
    refine ⟨by dsimp only; rw [length_signalPrev, List.length_set]; exact len, ?_, us⟩
    dsimp only
    intro i c hi
    unfold signalPrev at hi ⊢
    by_cases hk : k ≠ 0
    · rw [if_pos hk] at hi ⊢
      rw [get_signal] at hi
      by_cases e : k - 1 = i
      · rw [if_pos e, List.getElem?_set_ne (by omega)] at hi
        cases e2 : s.steps[i]? with
        | none => rw [e2] at hi; cases hi
        | some d =>
          rw [e2] at hi
          cases hi
          exact (g i d e2).wake (fun hd => ⟨((g i d e2).dead hd).1, ((g i d e2).dead hd).2.2⟩)
      · rw [if_neg e] at hi
        by_cases e2 : k = i
        · subst e2
          rw [List.getElem?_set_self hl] at hi
          cases hi
          exact Good.awake (Or.inr (Or.inl ⟨x, rfl⟩))
        · rw [List.getElem?_set_ne e2] at hi
          refine (g i c hi).congr (fun _ h => h) (Or.inl ?_)
          rw [slotAt_signal, slotAt_set _ _ _ _ (by omega)]
    · have hk : k = 0 := by omega
      subst hk
      rw [if_neg (by omega)] at hi ⊢
      by_cases e2 : 0 = i
      · subst e2
        rw [List.getElem?_set_self hl] at hi
        cases hi
        exact Good.awake (Or.inr (Or.inl ⟨x, rfl⟩))
      · rw [List.getElem?_set_ne e2] at hi
        refine (g i c hi).congr (fun _ h => h) (Or.inl ?_)
        rw [slotAt_set _ _ _ _ (by omega)]
  · rename_i hx
    split
    · rename_i hk
      subst hk
      split
      · rename_i x q hq
        refine ⟨by dsimp only; rw [List.length_set]; exact len, ?_, us⟩
        exact good_set g (Good.awake (Or.inr (Or.inl ⟨x, rfl⟩))) (by simp) (Or.inl (slotAt_set_same h hx.symm))
      · rename_i hq
        refine ⟨by dsimp only; rw [List.length_set]; exact len, ?_, us⟩
        refine good_set g ?_ (fun _ h => h) (Or.inl (slotAt_set_same h hx.symm))
        exact ⟨fun _ => ⟨hu, rfl, fun _ => hq⟩, by simp, by simp, by simp⟩
    · rename_i hk
      refine ⟨by dsimp only; rw [length_signalPrev, List.length_set]; exact len, ?_, us⟩
      refine good_signalPrev k (good_set g ?_ (fun _ h => h) (Or.inl (slotAt_set_same h hx.symm)))
      exact ⟨fun _ => ⟨hu, rfl, fun e => absurd e hk⟩, by simp, by simp, by simp⟩

theorem GoodU.wake {n : Nat} {status status' : Bool} {cnt cnt' : Int} {u : U} (g : GoodU n status cnt u) (hs : status = false → status' = false)
    (hc : cnt ≤ 0 → cnt' ≤ 0) : GoodU n status' cnt' (wakeU u) := by
  cases u with
  | wSleep l => constructor <;> simp [wakeU]
  | dSleep => refine ⟨by simp [wakeU], by simp [wakeU], fun _ => hs (g.dSleep rfl).2, by simp [wakeU]⟩
  | dWoken => refine ⟨by simp [wakeU], by simp [wakeU], fun _ => hs (g.dWoken rfl), by simp [wakeU]⟩
  | dJoin i =>
    refine ⟨by simp [wakeU], by simp [wakeU], by simp [wakeU], ?_⟩
    intro j hj
    obtain ⟨h1, h2, h3⟩ := g.dJoin i rfl
    cases hj
    exact ⟨hs h1, hc h2, h3⟩
  | idle => constructor <;> simp [wakeU]
  | wWoken l => constructor <;> simp [wakeU]
  | dDone => constructor <;> simp [wakeU]

theorem goodU_map {n : Nat} {status status' : Bool} {cnt cnt' : Int} {us : List U} (g : ∀ u ∈ us, GoodU n status cnt u)
    (hs : status = false → status' = false) (hc : cnt ≤ 0 → cnt' ≤ 0) : ∀ u ∈ us.map wakeU, GoodU n status' cnt' u := by
  intro u hu
  obtain ⟨v, hv, rfl⟩ := List.mem_map.1 hu
  exact (g v hv).wake hs hc

theorem finishTask_live {n : Nat} {s : St} (L : Live n s) (x : Task) (r : Res) : Live n (finishTask s x r) :=
  ⟨L.len, L.steps, goodU_map L.users (fun h => h) (fun h => by unfold finishTask; dsimp only; omega)⟩

theorem exitRest_live {n : Nat} {s1 : St} {k : Nat} (L1 : Live n s1) (hu : s1.status = false) :
    Live n { (if k = 0 then abortAll s1 s1.queue else s1) with steps := (if k = 0 then abortAll s1 s1.queue else s1).steps.set k ⟨.dead, none⟩ } := by
  obtain ⟨len, g, us⟩ := L1
  split
  · rename_i hk
    subst hk
    rw [abortAll_eq]
    refine ⟨by dsimp only; rw [List.length_set]; exact len, ?_, ?_⟩
    · refine good_set g ?_ (fun h => absurd rfl h) (Or.inr hu)
      exact ⟨by simp, by simp, by simp, fun _ => ⟨hu, rfl, fun _ => rfl⟩⟩
    · dsimp only
      split
      · rename_i hq
        rw [hq]
        simpa using us
      · exact goodU_map us (fun h => h) (fun h => by omega)
  · rename_i hk
    refine ⟨by dsimp only; rw [List.length_set]; exact len, ?_, us⟩
    refine good_set g ?_ (fun _ h => h) (Or.inr hu)
    exact ⟨by simp, by simp, by simp, fun _ => ⟨hu, rfl, fun h => absurd h hk⟩⟩

theorem exitStep_live {n : Nat} {s : St} {k : Nat} {a : Stp} (L : Live n s) (hu : s.status = false) : Live n (exitStep s k a) := by
  obtain ⟨pc, slot⟩ := a
  cases slot with
  | none => exact exitRest_live L hu
  | some x => exact exitRest_live (finishTask_live L x .abort) hu

theorem sendNext_live {n : Nat} {s : St} {k : Nat} {a : Stp} {x : Task} (L : Live n s) (h : s.steps[k]? = some a) : Live n (sendNext s k a x) := by
  unfold sendNext
  split
  · exact L
  · rename_i b hb
    obtain ⟨len, g, us⟩ := L
    have hkn : k + 1 < n := by have := lt_of_get hb; omega
    split
    · rename_i hs
      refine ⟨by dsimp only; rw [List.length_set]; exact len, ?_, us⟩
      refine good_set g ?_ (fun _ h => h) (Or.inl (slotAt_set_same h rfl))
      refine ⟨by simp, fun y _ => ⟨hkn, fun _ => ?_⟩, by simp, by simp⟩
      rw [slotAt_set _ _ _ _ (by omega)]
      unfold slotAt
      rw [hb]
      cases e : b.slot with
      | none => exact absurd e hs
      | some y => exact ⟨y, by simp [e]⟩
    · rename_i hs
      have hbs : b.slot = none := Classical.byContradiction hs
      have g1 := good_set (queue' := s.queue) (b := { a with pc := PC.top }) (i := k) g (Good.awake (Or.inl rfl)) (fun _ h => h)
        (Or.inl (slotAt_set_same h rfl))
      split
      · exact finishTask_live (s := { s with steps := s.steps.set k { a with pc := .top } }) ⟨by dsimp only; rw [List.length_set]; exact len, g1, us⟩ _ _
      · rename_i hup
        have hup : s.status = true := by cases e : s.status <;> simp_all
        refine ⟨by dsimp only; rw [length_signal, List.length_set, List.length_set]; exact len, ?_, us⟩
        dsimp only
        intro i c hi
        rw [get_signal] at hi
        by_cases e : k + 1 = i
        · subst e
          rw [if_pos rfl, List.getElem?_set_self (by rw [List.length_set]; omega)] at hi
          cases hi
          have gb := g (k + 1) b hb
          have key : Good n s.status s.queue (slotAt s.steps) (k + 1) (wake b) :=
            gb.wake (fun hd => ⟨(gb.dead hd).1, (gb.dead hd).2.2⟩)
          obtain ⟨pc, slot⟩ := b
          cases pc with
          | dead => have := (gb.dead rfl).1; rw [hup] at this; cases this
          | sleepF => exact Good.awake (Or.inl rfl)
          | top => exact Good.awake (Or.inl rfl)
          | run x => exact Good.awake (Or.inr (Or.inl ⟨x, rfl⟩))
          | ret x ok => exact Good.awake (Or.inr (Or.inr ⟨x, ok, rfl⟩))
          | sleepS x => exact ⟨by simp [wake], by simp [wake], fun _ _ => (gb.sleepS x rfl).1, by simp [wake]⟩
          | wokenS x => exact ⟨by simp [wake], by simp [wake], fun _ _ => gb.wokenS x rfl, by simp [wake]⟩
        · rw [if_neg e, List.getElem?_set_ne e] at hi
          by_cases e2 : k = i
          · subst e2
            rw [List.getElem?_set_self (by omega)] at hi
            cases hi
            exact Good.awake (Or.inl rfl)
          · refine (g1 i c hi).congr (fun _ h => h) (Or.inl ?_)
            rw [slotAt_signal, slotAt_set _ _ _ _ (by omega)]

theorem failure_live {n : Nat} {s : St} (L : Live n s) (ok : Bool) : Live n (failure s ok) := by
  unfold failure
  split
  · exact ⟨by dsimp only; rw [List.length_map]; exact L.len, good_down L.steps, goodU_map L.users (fun _ => rfl) (fun h => h)⟩
  · exact L

theorem finishStep_live {n : Nat} {s : St} {k : Nat} {a : Stp} {x : Task} {ok : Bool} (L : Live n s) (h : s.steps[k]? = some a) (ha : a.pc = .ret x ok) :
    Live n (finishStep s k a x ok) := by
  have L1 := failure_live L ok
  have h1 := failure_get (ok := ok) h ha
  unfold finishStep
  dsimp only
  split
  · refine finishTask_live (s := { failure s ok with steps := (failure s ok).steps.set k { a with pc := .top } }) ?_ _ _
    exact ⟨by dsimp only; rw [List.length_set]; exact L1.len,
      good_set L1.steps (Good.awake (Or.inl rfl)) (fun _ h => h) (Or.inl (slotAt_set_same h1 rfl)), L1.users⟩
  · exact sendNext_live L1 h1

theorem goodU_set {n : Nat} {status : Bool} {cnt : Int} {us : List U} {j : Nat} {v : U} (g : ∀ u ∈ us, GoodU n status cnt u) (hv : GoodU n status cnt v) :
    ∀ u ∈ us.set j v, GoodU n status cnt u := by
  intro u hu
  rcases List.mem_or_eq_of_mem_set hu with h | h
  · exact g u h
  · rw [h]; exact hv

theorem join_live {n : Nat} {s : St} {j i : Nat} (L : Live n s) (hu : s.status = false) (hc : s.cnt ≤ 0) : Live n (join s j i) := by
  obtain ⟨len, g, us⟩ := L
  unfold join
  split
  · rename_i hi
    refine ⟨by dsimp only; rw [length_signal]; exact len, good_signal _ g, goodU_set us ?_⟩
    refine ⟨by simp, by simp, by simp, ?_⟩
    intro i' e
    cases e
    exact ⟨hu, hc, by omega⟩
  · exact ⟨len, g, goodU_set us (by constructor <;> simp)⟩

theorem wait_live {n : Nat} {s : St} {j l : Nat} (L : Live n s) : Live n (wait s j l) := by
  obtain ⟨len, g, us⟩ := L
  unfold wait
  split
  · exact ⟨len, g, goodU_set us (by constructor <;> simp)⟩
  · refine ⟨len, g, goodU_set us ?_⟩
    refine ⟨?_, by simp, by simp, by simp⟩
    intro l' e
    cases e
    dsimp only
    omega

theorem step_live {n : Nat} {s s' : St} (I : Inv s) (L : Live n s) (st : Step s s') : Live n s' := by
  have L0 := L
  obtain ⟨len, g, us⟩ := L
  cases st with
  | top h ha =>
    unfold top
    split
    · rename_i hu; exact exitStep_live L0 hu
    · rename_i hu; exact fetch_live L0 h (by cases e : s.status <;> simp_all)
  | callback ok h ha =>
    refine ⟨by dsimp only; rw [List.length_set]; exact len, ?_, us⟩
    exact good_set g (Good.awake (Or.inr (Or.inr ⟨_, _, rfl⟩))) (fun _ h => h) (Or.inl (slotAt_set_same h rfl))
  | finish h ha => exact finishStep_live L0 h ha
  | resume h ha => exact sendNext_live L0 h
  | spurious => exact ⟨by dsimp only; rw [length_signal]; exact len, good_signal _ g, us⟩
  | spuriousU h =>
    refine ⟨len, g, goodU_set us ?_⟩
    exact (us _ (List.mem_of_getElem? h)).wake (fun h => h) (fun h => h)
  | @insert j x h hx =>
    unfold insert
    split
    · exact L0
    · rename_i hu
      refine ⟨by dsimp only; rw [length_signal]; exact len, ?_, ?_⟩
      · dsimp only
        intro k a hk
        rw [get_signal] at hk
        split at hk
        · cases e : s.steps[k]? with
          | none => rw [e] at hk; cases hk
          | some c =>
            rw [e] at hk
            cases hk
            exact (g k c e).wake (fun hd => absurd ((g k c e).dead hd).1 hu)
        · exact (g k a hk).congr (fun hk0 => by omega) (Or.inl (slotAt_signal _ _ _))
      · intro u hu'
        have gu := us u hu'
        refine ⟨fun l e => ?_, fun e => ?_, gu.dWoken, fun i e => ?_⟩
        · have := gu.wSleep l e; dsimp only; omega
        · have := gu.dSleep e; exact ⟨by dsimp only; omega, this.2⟩
        · exact absurd (gu.dJoin i e).1 hu
  | wait h => exact wait_live L0
  | waitResume h => exact wait_live L0
  | destroy h =>
    unfold destroy
    refine ⟨by dsimp only; rw [List.length_map]; exact len, good_down g, goodU_set (goodU_map us (fun _ => rfl) (fun h => h)) ?_⟩
    exact ⟨by simp, by simp, fun _ => rfl, by simp⟩
  | destroyResume h =>
    have hu := (us _ (List.mem_of_getElem? h)).dWoken rfl
    unfold destroyWait
    split
    · rename_i hc; exact join_live L0 hu hc
    · refine ⟨len, g, goodU_set us ?_⟩
      exact ⟨by simp, fun _ => ⟨by dsimp only; omega, hu⟩, by simp, by simp⟩
  | joined h h1 h2 =>
    obtain ⟨hu, hc, _⟩ := (us _ (List.mem_of_getElem? h)).dJoin _ rfl
    exact join_live L0 hu hc

theorem reach_live {b : Bool} {n m : Nat} {s : St} (h : Reach b n m s) : Live n s := by
  induction h with
  | init => exact init_live b n m
  | step r st ih => exact step_live (reach_inv r) ih st

end Verif.Pipe
