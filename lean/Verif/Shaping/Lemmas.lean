import Verif.Shaping.Spec

/-! What a call does to one direction. -/
namespace Verif.Shaping

theorem get_put_same (h : H) (rd : Bool) (d : Dir) : get (put h rd d) rd = d := by cases rd <;> rfl
theorem get_put_other (h : H) (rd x : Bool) (d : Dir) (hx : x ≠ rd) : get (put h x d) rd = get h rd := by
  cases rd <;> cases x <;> first | rfl | (exact absurd rfl hx)
theorem disc_put (h : H) (rd : Bool) (d : Dir) : (put h rd d).disc = h.disc := by cases rd <;> rfl

/-- What checks do to a direction: old slots go, and flags change. -/
inductive Q (c : Nat → Nat) : Dir → Dir → Prop
  | refl (d : Dir) : Q c d d
  | exp {d d' : Dir} (k : Nat) : Q c d d' → Q c d { d' with tr := (expired c d'.conf d'.tr k).1 }
  | flags {d d' : Dir} (w f : Bool) : Q c d d' → Q c d { d' with waiting := w, full := f }

theorem Q.trans {c : Nat → Nat} {a b d : Dir} (h1 : Q c a b) (h2 : Q c b d) : Q c a d := by
  induction h2 with
  | refl => exact h1
  | exp k _ ih => exact .exp k ih
  | flags w f _ ih => exact .flags w f ih

theorem Q.waiting {c : Nat → Nat} {a b : Dir} (h : Q c a b) (w : Bool) : Q c a { b with waiting := w } :=
  .flags w b.full h

theorem maxSize_tr (c : Nat → Nat) (f : Conf) (tr : Track) (k : Nat) : (maxSize c f tr k).2.1 = (expired c f tr k).1 := rfl

theorem nextMs_tr {c : Nat → Nat} {f : Conf} {tr : Track} {k : Nat} {r : Nat × Track × Nat} (h : nextMs c f tr k = some r) :
    r.2.1 = (expired c f tr k).1 := by
  unfold nextMs at h
  dsimp only at h
  split at h
  · cases h; rfl
  · split at h
    · cases h
    · cases h; rfl

theorem timeoutDir_q {c : Nat → Nat} {rd disc : Bool} {d : Dir} {k : Nat} {r : Nat × Dir × Nat} (h : timeoutDir c rd disc d k = some r) :
    Q c d r.2.1 := by
  unfold timeoutDir at h
  split at h
  · cases h; exact .refl _
  split at h
  · cases h; exact .refl _
  split at h
  · cases h; exact .refl _
  · cases hn : nextMs c d.conf d.tr k with
    | none => rw [hn] at h; cases h
    | some x =>
      rw [hn] at h; cases h
      have := nextMs_tr hn
      show Q c d { d with tr := x.2.1 }
      rw [this]
      exact .exp k (.refl d)

theorem setTimeout_q {c : Nat → Nat} {h : H} {k : Nat} {r : H × Nat} (hs : setTimeout c h k = some r) :
    Q c h.inn r.1.inn ∧ Q c h.out r.1.out ∧ r.1.disc = h.disc := by
  unfold setTimeout at hs
  split at hs
  · cases hs
  · rename_i i hi
    split at hs
    · cases hs
    · rename_i o ho
      cases hs
      exact ⟨timeoutDir_q hi, timeoutDir_q ho, rfl⟩

theorem setTimeout_qd {c : Nat → Nat} {h : H} {k : Nat} {r : H × Nat} (hs : setTimeout c h k = some r) (rd : Bool) :
    Q c (get h rd) (get r.1 rd) := by
  have := setTimeout_q hs
  cases rd
  · exact this.2.1
  · exact this.1

/-- The three things a call can do to a direction. -/
inductive Did (c : Nat → Nat) (rd : Bool) (d : Dir) (op : Op) : Dir → List Ev → Prop
  /-- Only checks. -/
  | quiet {d' : Dir} {evs : List Ev} : Q c d d' → (∀ t n, Ev.moved rd t n ∉ evs) → Did c rd d op d' evs
  /-- Bytes are moved. -/
  | moved {d1 d' : Dir} {len n k' : Nat} {w f : Bool} {res : Lower} : op = .io rd len res → latency c rd d 0 = 0 →
      n ≤ (maxSize c d.conf d.tr 1).1 → n ≤ len → (1 ≤ len → (∀ x, res = .ok x → 1 ≤ x) → 1 ≤ n) →
      transfer c n { d with tr := (maxSize c d.conf d.tr 1).2.1, waiting := w, full := f } (maxSize c d.conf d.tr 1).2.2 = some (d1, k') →
      Q c d1 d' → Did c rd d op d' [.moved rd (c (maxSize c d.conf d.tr 1).2.2) n]
  /-- A setting. -/
  | throttle {bps : Nat} : op = .throttle rd bps → Did c rd d op (setThrottle d bps) []
  | mode {b : Bool} : op = .mode rd b → Did c rd d op (setMode d b) []
  | period {p f : Nat} : op = .period rd p f → badPeriod p f = false → Did c rd d op (setPeriod d p f) []
  | latency {ms : Nat} : op = .latency rd ms → Did c rd d op (setLatency c d ms) []

theorem step_io {c : Nat → Nat} {h : H} {x : Bool} {len : Nat} {res : Lower} {r : H × List Ev} (hs : io c h x len res = some r) (rd : Bool) :
    Did c rd (get h rd) (.io x len res) (get r.1 rd) r.2 := by
  unfold io at hs
  split at hs
  · cases hs
  · rename_i y hy
    cases hst : setTimeout c (put h x y.1) y.2.2 with
    | none => rw [hst] at hs; cases hs
    | some z =>
      rw [hst] at hs; cases hs
      have hq := setTimeout_qd hst rd
      show Did c rd (get h rd) (.io x len res) (get z.1 rd) [y.2.1]
      by_cases hx : x = rd
      · subst hx
        rw [get_put_same] at hq
        unfold xfer at hy
        split at hy
        · cases hy
          exact .quiet ((Q.waiting (.refl _) true).trans hq) (by simp)
        · rename_i hl
          have hl : latency c x (get h x) 0 = 0 := Classical.byContradiction hl
          dsimp only at hy
          split at hy
          · cases hy
            exact .quiet ((Q.waiting (.exp 1 (.refl _)) true).trans hq) (by simp)
          · rename_i hm
            unfold go at hy
            dsimp only at hy
            split at hy
            · rename_i n
              cases ht : transfer c (min n (min len (maxSize c (get h x).conf (get h x).tr 1).1))
                  { get h x with tr := (maxSize c (get h x).conf (get h x).tr 1).2.1,
                                 waiting := decide ((maxSize c (get h x).conf (get h x).tr 1).1 < len),
                                 full := x && !decide ((maxSize c (get h x).conf (get h x).tr 1).1 < len) }
                  (maxSize c (get h x).conf (get h x).tr 1).2.2 with
              | none => rw [ht] at hy; cases hy
              | some u =>
                rw [ht] at hy; cases hy
                refine .moved (res := .ok n) rfl hl ?_ ?_ ?_ ht ?_
                · omega
                · omega
                · intro h1 h2
                  have := h2 n rfl
                  omega
                · refine Q.trans ?_ hq
                  show Q c u.1 (if _ then lessThan u.1 else u.1)
                  split
                  · exact .flags _ _ (.refl _)
                  · exact .refl _
            · cases hy
              refine .quiet (Q.trans ?_ hq) (by simp)
              exact .flags (d' := { get h x with tr := _ }) _ _ (.exp 1 (.refl _))
            · cases hy
              refine .quiet (Q.trans ?_ hq) (by simp)
              exact .flags (d' := { get h x with tr := _ }) _ _ (.exp 1 (.refl _))
      · rw [get_put_other _ _ _ _ hx] at hq
        refine .quiet hq ?_
        intro t n hmem
        have he : y.2.1 = .moved rd t n := by simpa using Eq.symm (by simpa using hmem : Ev.moved rd t n = y.2.1)
        unfold xfer at hy
        split at hy
        · cases hy; cases he
        · dsimp only at hy
          split at hy
          · cases hy; cases he
          · unfold go at hy
            dsimp only at hy
            split at hy
            · cases ht : transfer c _ _ _ with
              | none => rw [ht] at hy; cases hy
              | some u =>
                rw [ht] at hy; cases hy
                injection he with h1 _ _
                exact hx h1
            · cases hy; cases he
            · cases hy; cases he

theorem step_timer {c : Nat → Nat} {h : H} {r : H × List Ev} (hs : timerCb c h = some r) (rd : Bool) :
    Did c rd (get h rd) .timer (get r.1 rd) r.2 := by
  have hsoft : ∀ i o t n, Ev.moved rd t n ∉ softIf true i ++ softIf false o := by
    intro i o t n
    unfold softIf
    split <;> split <;> simp
  unfold timerCb at hs
  split at hs
  · cases hs
  · rename_i i hi
    split at hs
    · cases hs
    · rename_i o ho
      have q1 := timeoutDir_q hi
      have q2 := timeoutDir_q ho
      split at hs
      · cases hst : setTimeout c { h with inn := i.2.1, out := o.2.1, timer := none } o.2.2 with
        | none => rw [hst] at hs; cases hs
        | some z =>
          rw [hst] at hs; cases hs
          have hq := setTimeout_q hst
          refine .quiet ?_ (hsoft _ _)
          cases rd
          · exact q2.trans hq.2.1
          · exact q1.trans hq.1
      · cases hs
        refine .quiet ?_ (hsoft _ _)
        cases rd
        · exact q2
        · exact q1

theorem step_event {c : Nat → Nat} {h : H} {x : Bool} {r : H × List Ev} (hs : processCb c h x = some r) (rd : Bool) :
    Did c rd (get h rd) (.event x) (get r.1 rd) r.2 := by
  unfold processCb at hs
  split at hs
  · cases hs; exact .quiet (.refl _) (by simp)
  split at hs
  · cases hs
  · rename_i y hy
    have q := timeoutDir_q hy
    have qp : ∀ d, Q c (get h x) d → Q c (get h rd) (get (put h x d) rd) := by
      intro d hd
      by_cases hx : x = rd
      · subst hx; rw [get_put_same]; exact hd
      · rw [get_put_other _ _ _ _ hx]; exact .refl _
    split at hs
    · cases hst : setTimeout c (put h x { y.2.1 with waiting := false }) y.2.2 with
      | none => rw [hst] at hs; cases hs
      | some z =>
        rw [hst] at hs; cases hs
        exact .quiet ((qp _ (q.waiting false)).trans (setTimeout_qd hst rd)) (by simp)
    split at hs
    · cases hs; exact .quiet (qp _ q) (by simp)
    · cases hs; exact .quiet (qp _ q) (by simp)

/-- What a call does to one direction. -/
theorem step_did {c : Nat → Nat} {h : H} {op : Op} {r : H × List Ev} (hs : step c h op = some r) (rd : Bool) :
    Did c rd (get h rd) op (get r.1 rd) r.2 := by
  cases op with
  | io x len res => exact step_io hs rd
  | throttle x bps =>
    cases hs
    by_cases hx : x = rd
    · subst hx; rw [show get (put h x _, ([] : List Ev)).1 x = _ from get_put_same _ _ _]; exact .throttle rfl
    · rw [show get (put h x _, ([] : List Ev)).1 rd = _ from get_put_other _ _ _ _ hx]; exact .quiet (.refl _) (by simp)
  | mode x b =>
    cases hs
    by_cases hx : x = rd
    · subst hx; rw [show get (put h x _, ([] : List Ev)).1 x = _ from get_put_same _ _ _]; exact .mode rfl
    · rw [show get (put h x _, ([] : List Ev)).1 rd = _ from get_put_other _ _ _ _ hx]; exact .quiet (.refl _) (by simp)
  | period x p f =>
    simp only [step] at hs
    split at hs
    · cases hs; exact .quiet (.refl _) (by simp)
    · rename_i hb
      cases hs
      by_cases hx : x = rd
      · subst hx; rw [show get (put h x _, ([] : List Ev)).1 x = _ from get_put_same _ _ _]; exact .period rfl (by simpa using hb)
      · rw [show get (put h x _, ([] : List Ev)).1 rd = _ from get_put_other _ _ _ _ hx]; exact .quiet (.refl _) (by simp)
  | latency x ms =>
    cases hs
    by_cases hx : x = rd
    · subst hx; rw [show get (put h x _, ([] : List Ev)).1 x = _ from get_put_same _ _ _]; exact .latency rfl
    · rw [show get (put h x _, ([] : List Ev)).1 rd = _ from get_put_other _ _ _ _ hx]; exact .quiet (.refl _) (by simp)
  | disconnect => cases hs; cases rd <;> exact .quiet (.refl _) (by simp)
  | timer => exact step_timer hs rd
  | event x => exact step_event hs rd
  | total x => cases hs; exact .quiet (.refl _) (by simp)
  | rate x =>
    cases hs
    by_cases hx : x = rd
    · subst hx
      refine .quiet ?_ (by simp)
      show Q c _ (get (put h x _) x)
      rw [get_put_same]
      exact .exp 0 (.refl _)
    · refine .quiet ?_ (by simp)
      show Q c _ (get (put h x _) rd)
      rw [get_put_other _ _ _ _ hx]
      exact .refl _

theorem Q.conf {c : Nat → Nat} {a b : Dir} (h : Q c a b) : b.conf = a.conf ∧ b.last = a.last ∧ b.total = a.total ∧ b.tr.size = a.tr.size := by
  induction h with
  | refl => exact ⟨rfl, rfl, rfl, rfl⟩
  | exp k _ ih => exact ih
  | flags w f _ ih => exact ih

theorem newSlot_size {c : Nat → Nat} {n : Nat} {tr : Track} {k : Nat} {r : Track × Nat} (h : newSlot c n tr k = some r) : r.1.size = tr.size := by
  unfold newSlot at h
  split at h
  · cases h
  · cases h; rfl

theorem add_size {c : Nat → Nat} {f : Conf} {n : Nat} {tr : Track} {k : Nat} {r : Track × Nat} (h : add c f n tr k = some r) :
    r.1.size = tr.size := by
  unfold add at h
  split at h
  · exact newSlot_size h
  · split at h
    · exact newSlot_size h
    · cases h; rfl

theorem transfer_eq {c : Nat → Nat} {n : Nat} {d d1 : Dir} {k k' : Nat} (h : transfer c n d k = some (d1, k')) :
    ∃ tr, add c d.conf n d.tr (k + 1) = some (tr, k') ∧ d1 = { d with total := d.total + n, last := c k, tr := tr } := by
  unfold transfer at h
  cases ha : add c d.conf n d.tr (k + 1) with
  | none => rw [ha] at h; cases h
  | some r => rw [ha] at h; cases h; exact ⟨r.1, rfl, rfl⟩

/-- The bytes of slots. -/
def sumB : List Slot → Nat
  | [] => 0
  | s :: rest => s.bytes + sumB rest

theorem sumB_append (a b : List Slot) : sumB (a ++ b) = sumB a + sumB b := by
  induction a with
  | nil => simp [sumB]
  | cons s a ih => simp [sumB, ih, Nat.add_assoc]

/-- Removing old slots. -/
theorem expire_spec (c : Nat → Nat) (keep : Nat) (hk : 0 < keep) : ∀ (sl : List Slot) (b k : Nat),
    ∃ gone, sl = gone ++ (expire c keep b sl k).2.1 ∧ (expire c keep b sl k).1 = b - sumB gone ∧ k ≤ (expire c keep b sl k).2.2 ∧
      (∀ s ∈ gone, ∃ j, j < (expire c keep b sl k).2.2 ∧ s.start + keep ≤ c j) ∧
      (∀ s rest, (expire c keep b sl k).2.1 = s :: rest → ∃ j, (expire c keep b sl k).2.2 = j + 1 ∧ k ≤ j ∧ c j - s.start < keep) := by
  intro sl
  induction sl with
  | nil => intro b k; exact ⟨[], rfl, rfl, Nat.le_refl _, by simp, by simp [expire]⟩
  | cons s sl ih =>
    intro b k
    by_cases h : elapsed s.start (c k) < keep
    · have e : expire c keep b (s :: sl) k = (b, s :: sl, k + 1) := by simp only [expire]; rw [if_pos h]
      rw [e]
      refine ⟨[], rfl, rfl, Nat.le_succ _, by simp, ?_⟩
      intro s' rest he
      cases he
      exact ⟨k, rfl, Nat.le_refl _, h⟩
    · have e : expire c keep b (s :: sl) k = expire c keep (b - s.bytes) sl (k + 1) := by simp only [expire]; rw [if_neg h]
      rw [e]
      obtain ⟨gone, h1, h2, h3, h4, h5⟩ := ih (b - s.bytes) (k + 1)
      refine ⟨s :: gone, by rw [List.cons_append, ← h1], by rw [h2, sumB]; omega, by omega, ?_, ?_⟩
      · intro s' hs'
        rcases List.mem_cons.mp hs' with rfl | hs'
        · exact ⟨k, by omega, by unfold elapsed at h; omega⟩
        · exact h4 _ hs'
      · intro s' rest he
        obtain ⟨j, h6, h7, h8⟩ := h5 s' rest he
        exact ⟨j, h6, by omega, h8⟩

end Verif.Shaping
