import Verif.Timer.Spec
/-! The invariant of the timers. -/
namespace Verif.Timer

theorem skip (e : Ev) (l : List Ev) (i : Nat) (h : e.id ≠ i) :
    running (e :: l) i = running l i ∧ since (e :: l) i = since l i ∧ cntOf (e :: l) i = cntOf l i ∧ armed (e :: l) i = armed l i := by
  cases e <;> simp_all [running, since, cntOf, armed, Ev.id]

theorem unseen {l : List Ev} {i : Nat} (h : ∀ e ∈ l, e.id ≠ i) : running l i = false ∧ since l i = 0 ∧ cntOf l i = 0 ∧ armed l i = none := by
  induction l with
  | nil => exact ⟨rfl, rfl, rfl, rfl⟩
  | cons e l ih =>
    have h1 := skip e l i (h e (by simp))
    have h2 := ih (fun e' he => h e' (by simp [he]))
    rw [h1.1, h1.2.1, h1.2.2.1, h1.2.2.2]
    exact h2

/-- What is known of a timer, in the queue or executing. -/
structure P (log : List Ev) (i : Nat) (t : T) (inq : Bool) : Prop where
  run : t.started = true → running log i = true
  le : since log i ≤ t.cnt
  cnt : cntOf log i = t.fireCnt
  lt : inq = true → t.started = true → t.fireCnt ≠ 0 → since log i < t.fireCnt
  due : inq = true → t.started = true → ∀ d, armed log i = some d → t.next = d
  arm : inq = false → armed log i = none

theorem P.skip {log : List Ev} {i : Nat} {t : T} {b : Bool} (p : P log i t b) (e : Ev) (h : e.id ≠ i) : P (e :: log) i t b := by
  have hs := Verif.Timer.skip e log i h
  constructor
  · rw [hs.1]; exact p.run
  · rw [hs.2.1]; exact p.le
  · rw [hs.2.2.1]; exact p.cnt
  · rw [hs.2.1]; exact p.lt
  · rw [hs.2.2.2]; exact p.due
  · rw [hs.2.2.2]; exact p.arm

/-- What the fires of a history satisfy. -/
def FireOk : List Ev → Prop
  | [] => True
  | .fire i time due :: l => (running l i = true ∧ ms due ≤ ms time ∧ ∀ d, armed l i = some d → due = d) ∧ FireOk l
  | _ :: l => FireOk l

structure Inv (s : St) : Prop where
  ids : ((s.q ++ s.exec.toList).map (·.1)).Nodup
  used : ∀ x ∈ s.q ++ s.exec.toList, x.1 ∈ s.used
  logUsed : ∀ e ∈ s.log, e.id ∈ s.used
  inq : ∀ x ∈ s.q, P s.log x.1 x.2 true
  inx : ∀ x, s.exec = some x → P s.log x.1 x.2 false
  sorted : s.q.Pairwise (fun a b => cmp a.2 b.2 ≤ 0)
  glob : ∀ i, cntOf s.log i ≠ 0 → since s.log i ≤ cntOf s.log i
  fires : FireOk s.log
  curr : ∀ c l, s.pass = some (c, l) → c ≤ s.now

theorem Ins.perm {x : Nat × T} {q q' : List (Nat × T)} (h : Ins x q q') : q'.Perm (x :: q) := by
  obtain ⟨l1, l2, rfl, rfl, _, _⟩ := h
  exact List.perm_middle

theorem Ins.mem {x : Nat × T} {q q' : List (Nat × T)} (h : Ins x q q') (y : Nat × T) : y ∈ q' ↔ y = x ∨ y ∈ q := by
  rw [h.perm.mem_iff, List.mem_cons]

theorem Ins.sorted {x : Nat × T} {q q' : List (Nat × T)} (h : Ins x q q') (hs : q.Pairwise (fun a b => cmp a.2 b.2 ≤ 0)) :
    q'.Pairwise (fun a b => cmp a.2 b.2 ≤ 0) := by
  obtain ⟨l1, l2, rfl, rfl, h1, h2⟩ := h
  rw [List.pairwise_append] at hs ⊢
  refine ⟨hs.1, List.pairwise_cons.2 ⟨h2, hs.2.1⟩, ?_⟩
  intro a ha b hb
  rcases List.mem_cons.1 hb with rfl | hb
  · exact h1 a ha
  · exact hs.2.2 a ha b hb

theorem mem_dequeue {i : Nat} {q : List (Nat × T)} {y : Nat × T} : y ∈ dequeue i q ↔ y ∈ q ∧ y.1 ≠ i := by
  unfold dequeue
  rw [List.mem_filter]
  simp

theorem dequeue_sub (i : Nat) (q : List (Nat × T)) : (dequeue i q).Sublist q := List.filter_sublist

/-- The identifiers after a timer in the queue is replaced. -/
theorem ids_replace {s : St} (I : Inv s) {i : Nat} {t t' : T} (h : (i, t) ∈ s.q) {q' : List (Nat × T)} (hi : Ins (i, t') (dequeue i s.q) q') :
    ((q' ++ s.exec.toList).map (·.1)).Nodup ∧ (∀ x ∈ q' ++ s.exec.toList, x.1 ∈ s.used) ∧ (∀ y, y ∈ q' ↔ y = (i, t') ∨ (y ∈ s.q ∧ y.1 ≠ i)) ∧
      (∀ y, s.exec = some y → y.1 ≠ i) := by
  have hm : ∀ y, y ∈ q' ↔ y = (i, t') ∨ (y ∈ s.q ∧ y.1 ≠ i) := by
    intro y
    rw [hi.mem, mem_dequeue]
  have hids := I.ids
  rw [List.map_append, List.nodup_append] at hids
  have hex : ∀ y, s.exec = some y → y.1 ≠ i := by
    intro y hy e
    refine hids.2.2 i (List.mem_map.2 ⟨_, h, rfl⟩) y.1 ?_ e.symm
    rw [hy]; simp
  refine ⟨?_, ?_, hm, hex⟩
  · rw [List.map_append, List.nodup_append]
    refine ⟨?_, hids.2.1, ?_⟩
    · rw [(hi.perm.map _).nodup_iff]
      rw [List.map_cons, List.nodup_cons]
      refine ⟨?_, ((dequeue_sub i s.q).map _).nodup hids.1⟩
      intro hc
      obtain ⟨y, hy, e⟩ := List.mem_map.1 hc
      exact (mem_dequeue.1 hy).2 e
    · intro a ha b hb
      obtain ⟨y, hy, rfl⟩ := List.mem_map.1 ha
      rcases (hm y).1 hy with rfl | ⟨hy, _⟩
      · exact hids.2.2 _ (List.mem_map.2 ⟨_, h, rfl⟩) b hb
      · exact hids.2.2 _ (List.mem_map.2 ⟨_, hy, rfl⟩) b hb
  · intro x hx
    rcases List.mem_append.1 hx with hx | hx
    · rcases (hm x).1 hx with rfl | ⟨hx, _⟩
      · exact I.used (i, t) (by simp [h])
      · exact I.used x (by simp [hx])
    · exact I.used x (by simp only [List.mem_append]; exact Or.inr hx)

/-- A timer in the queue is replaced, with one event about it. -/
theorem Inv.replace {s : St} (I : Inv s) {i : Nat} {t t' : T} (h : (i, t) ∈ s.q) {q' : List (Nat × T)} (hi : Ins (i, t') (dequeue i s.q) q')
    (e : Ev) (he : e.id = i) (hp : P (e :: s.log) i t' true) (hf : FireOk (e :: s.log) ↔ FireOk s.log) (pend : List Nat)
    (hg : cntOf (e :: s.log) i ≠ 0 → since (e :: s.log) i ≤ cntOf (e :: s.log) i) : Inv { s with q := q', pend := pend, log := e :: s.log } := by
  obtain ⟨h1, h2, hm, hex⟩ := ids_replace I h hi
  refine ⟨h1, h2, ?_, ?_, ?_, hi.sorted (I.sorted.sublist (dequeue_sub _ _)), ?_, hf.2 I.fires, I.curr⟩
  · intro e' he'
    rcases List.mem_cons.1 he' with rfl | he'
    · rw [he]; exact I.used (i, t) (by simp [h])
    · exact I.logUsed e' he'
  · intro x hx
    rcases (hm x).1 hx with rfl | ⟨hx, hne⟩
    · exact hp
    · exact (I.inq x hx).skip e (by rw [he]; exact Ne.symm hne)
  · intro x hx
    exact (I.inx x hx).skip e (by rw [he]; exact Ne.symm (hex x hx))
  · intro j hj
    by_cases e2 : i = j
    · subst e2; exact hg hj
    · have hs := Verif.Timer.skip e s.log j (by rw [he]; exact e2)
      dsimp only at hj ⊢
      rw [hs.2.2.1] at hj ⊢
      rw [hs.2.1]
      exact I.glob j hj

/-- The executing timer is replaced, with one event about it. -/
theorem Inv.replaceX {s : St} (I : Inv s) {i : Nat} {t t' : T} (h : s.exec = some (i, t))
    (e : Ev) (he : e.id = i) (hp : P (e :: s.log) i t' false) (hf : FireOk (e :: s.log) ↔ FireOk s.log) (pend : List Nat)
    (hg : cntOf (e :: s.log) i ≠ 0 → since (e :: s.log) i ≤ cntOf (e :: s.log) i) :
    Inv { s with exec := some (i, t'), pend := pend, log := e :: s.log } := by
  have hids := I.ids
  have hused := I.used
  rw [h] at hids hused
  refine ⟨by simpa using hids, ?_, ?_, ?_, ?_, I.sorted, ?_, hf.2 I.fires, I.curr⟩
  · intro x hx
    rcases List.mem_append.1 hx with hx | hx
    · exact I.used x (by simp [hx])
    · simp at hx; rw [hx]; exact hused (i, t) (by simp)
  · intro e' he'
    rcases List.mem_cons.1 he' with rfl | he'
    · rw [he]; exact hused (i, t) (by simp)
    · exact I.logUsed e' he'
  · intro x hx
    refine (I.inq x hx).skip e ?_
    rw [he]
    rw [List.map_append, List.nodup_append] at hids
    exact fun e2 => hids.2.2 x.1 (List.mem_map.2 ⟨x, hx, rfl⟩) i (by simp) e2.symm
  · intro x hx
    cases hx
    exact hp
  · intro j hj
    by_cases e2 : i = j
    · subst e2; exact hg hj
    · have hs := Verif.Timer.skip e s.log j (by rw [he]; exact e2)
      dsimp only at hj ⊢
      rw [hs.2.2.1] at hj ⊢
      rw [hs.2.1]
      exact I.glob j hj

theorem cmp_congr {a b a' b' : T} (h1 : a'.started = a.started) (h2 : a'.next = a.next) (h3 : a'.last = a.last) (h4 : b'.started = b.started)
    (h5 : b'.next = b.next) (h6 : b'.last = b.last) : cmp a' b' = cmp a b := by
  unfold cmp
  rw [h1, h2, h3, h4, h5, h6]

/-- A field of a timer in the queue is set that the order does not depend on. -/
theorem sorted_set {l1 l2 : List (Nat × T)} {i : Nat} {t t' : T} (h1 : t'.started = t.started) (h2 : t'.next = t.next) (h3 : t'.last = t.last)
    (hs : (l1 ++ (i, t) :: l2).Pairwise (fun a b => cmp a.2 b.2 ≤ 0)) : (l1 ++ (i, t') :: l2).Pairwise (fun a b => cmp a.2 b.2 ≤ 0) := by
  rw [List.pairwise_append, List.pairwise_cons] at hs ⊢
  refine ⟨hs.1, ⟨fun b hb => ?_, hs.2.1.2⟩, ?_⟩
  · rw [cmp_congr h1 h2 h3 rfl rfl rfl]; exact hs.2.1.1 b hb
  · intro a ha b hb
    rcases List.mem_cons.1 hb with rfl | hb
    · rw [cmp_congr rfl rfl rfl h1 h2 h3]; exact hs.2.2 a ha (i, t) (by simp)
    · exact hs.2.2 a ha b (by simp [hb])

theorem Inv.setq {s : St} (I : Inv s) {l1 l2 : List (Nat × T)} {i : Nat} {t t' : T} (h : s.q = l1 ++ (i, t) :: l2) (h1 : t'.started = t.started)
    (h2 : t'.next = t.next) (h3 : t'.last = t.last) (hp : P s.log i t' true) : Inv { s with q := l1 ++ (i, t') :: l2 } := by
  have hids := I.ids
  have hused := I.used
  have hsort := I.sorted
  rw [h] at hids hused hsort
  refine ⟨by simpa using hids, ?_, I.logUsed, ?_, I.inx, sorted_set h1 h2 h3 hsort, I.glob, I.fires, I.curr⟩
  · intro x hx
    simp only [List.mem_append, List.mem_cons] at hx
    rcases hx with (hx | rfl | hx) | hx
    · exact hused x (by simp [hx])
    · exact hused (i, t) (by simp)
    · exact hused x (by simp [hx])
    · exact hused x (by simp only [List.mem_append]; exact Or.inr hx)
  · intro x hx
    simp only [List.mem_append, List.mem_cons] at hx
    rcases hx with hx | rfl | hx
    · exact I.inq x (by rw [h]; simp [hx])
    · exact hp
    · exact I.inq x (by rw [h]; simp [hx])

theorem Inv.setx {s : St} (I : Inv s) {i : Nat} {t t' : T} (h : s.exec = some (i, t)) (hp : P s.log i t' false) : Inv { s with exec := some (i, t') } := by
  have hids := I.ids
  have hused := I.used
  rw [h] at hids hused
  refine ⟨by simpa using hids, ?_, I.logUsed, I.inq, ?_, I.sorted, I.glob, I.fires, I.curr⟩
  · intro x hx
    rcases List.mem_append.1 hx with hx | hx
    · exact I.used x (by simp [hx])
    · simp at hx; rw [hx]; exact hused (i, t) (by simp)
  · intro x hx
    cases hx
    exact hp

theorem Inv.dequeue {s : St} (I : Inv s) (i : Nat) (pend : List Nat) : Inv { s with q := dequeue i s.q, pend := pend } := by
  have hsub := dequeue_sub i s.q
  refine ⟨((hsub.append_right _).map _).nodup I.ids, ?_, I.logUsed, ?_, I.inx, I.sorted.sublist hsub, I.glob, I.fires, I.curr⟩
  · intro x hx
    exact I.used x ((hsub.append_right _).subset hx)
  · intro x hx
    exact I.inq x (hsub.subset hx)

theorem schedule_fields (t : T) (now wall : Nat) : (schedule t now wall).1.started = t.started ∧ (schedule t now wall).1.cnt = t.cnt ∧
    (schedule t now wall).1.fireCnt = t.fireCnt := by
  unfold schedule
  dsimp only
  split
  · exact ⟨rfl, rfl, rfl⟩
  · split
    · split <;> exact ⟨rfl, rfl, rfl⟩
    · exact ⟨rfl, rfl, rfl⟩

theorem start_fields (t : T) (interval now wall : Nat) : (start t interval now wall).1.cnt = 0 ∧ (start t interval now wall).1.fireCnt = t.fireCnt ∧
    (start t interval now wall).1.started = ((start t interval now wall).2 || t.started) := by
  have h := schedule_fields { t with interval := interval, cnt := 0, next := 0 } now wall
  unfold start
  dsimp only
  split
  · rename_i hr
    exact ⟨h.2.1, h.2.2, by simp⟩
  · rename_i hr
    refine ⟨h.2.1, h.2.2, ?_⟩
    rw [h.1]
    cases e : (schedule { t with interval := interval, cnt := 0, next := 0 } now wall).2 with
    | true => exact absurd e hr
    | false => rfl

theorem start_next (t : T) (interval now wall : Nat) (h : (start t interval now wall).2 = true) :
    (start t interval now wall).1.next = now + delayOf t interval wall * 1000 := by
  have key : (schedule { t with interval := interval, cnt := 0, next := 0 } now wall).2 = true := by
    unfold start at h
    dsimp only at h
    split at h
    · rename_i hr; exact hr
    · exact h
  unfold start
  dsimp only
  rw [if_pos key]
  unfold schedule at key ⊢
  unfold delayOf
  dsimp only at key ⊢
  split
  · rename_i hc; rw [if_pos hc] at key; cases key
  · rename_i hc
    rw [if_neg hc] at key
    split
    · rename_i hv
      rw [if_pos hv] at key
      split
      · rename_i hd; rw [if_pos hd] at key; cases key
      · simp
    · simp

theorem fireOk_skip {e : Ev} {log : List Ev} (h : ∀ i time due, e ≠ .fire i time due) : FireOk (e :: log) ↔ FireOk log := by
  cases e with
  | fire i time due => exact absurd rfl (h i time due)
  | _ => exact Iff.rfl

theorem start_P {s : St} {i : Nat} {t : T} {b own : Bool} (p : P s.log i t b) (hb : own = !b) (interval now wall : Nat) :
    P (.start i (start t interval now wall).2 now (delayOf t interval wall) own :: s.log) i (start t interval now wall).1 b := by
  obtain ⟨h1, h2, h3⟩ := start_fields t interval now wall
  have h4 := start_next t interval now wall
  refine ⟨?_, ?_, ?_, ?_, ?_, ?_⟩
  · intro hs
    rw [h3] at hs
    simp only [running, true_and]
    split
    · rfl
    · rename_i hr
      rw [Bool.or_eq_true] at hs
      rcases hs with hs | hs
      · exact absurd hs hr
      · exact p.run hs
  · simp [since]
  · simp only [cntOf]; rw [h2]; exact p.cnt
  · intro _ _ hf
    simp only [since, if_true]
    omega
  · intro hb' _ d hd
    simp only [armed, if_true] at hd
    split at hd
    · rename_i hc
      cases hd
      exact h4 hc.1
    · cases hd
  · intro hb'
    subst hb' hb
    simp [armed]

theorem stop_P {log : List Ev} {i : Nat} {t t' : T} {b : Bool} (p : P log i t b) (e : Ev) (he : e = .stop i ∨ e = .remove i) (h1 : t'.started = false)
    (h2 : t'.cnt = t.cnt) (h3 : t'.fireCnt = t.fireCnt) : P (e :: log) i t' b := by
  rcases he with rfl | rfl
  · exact ⟨by simp [h1], by simp only [since]; rw [h2]; exact p.le, by simp only [cntOf]; rw [h3]; exact p.cnt, by simp [h1], by simp [h1], p.arm⟩
  · exact ⟨by simp [h1], by simp only [since]; rw [h2]; exact p.le, by simp only [cntOf]; rw [h3]; exact p.cnt, by simp [h1], by simp [h1], p.arm⟩

theorem P.same {log : List Ev} {i : Nat} {t t' : T} {b : Bool} (p : P log i t b) (h1 : t'.started = t.started) (h2 : t'.cnt = t.cnt)
    (h3 : t'.fireCnt = t.fireCnt) (h4 : t'.next = t.next) : P log i t' b :=
  ⟨by rw [h1]; exact p.run, by rw [h2]; exact p.le, by rw [h3]; exact p.cnt, by rw [h1, h3]; exact p.lt, by rw [h1, h4]; exact p.due, p.arm⟩

theorem setCnt_P {log : List Ev} {i : Nat} {t : T} {b : Bool} (p : P log i t b) (n : Nat) : P (.setCnt i n :: log) i { t with fireCnt := n } b := by
  refine ⟨p.run, by simp [since], by simp [cntOf], ?_, p.due, p.arm⟩
  intro _ _ hn
  simp only [since, if_true]
  dsimp only at hn ⊢
  omega

theorem after_P {log : List Ev} {i : Nat} {t t' : T} {now wall : Nat} (p : P log i t false) (h : after t now wall = some t') : P log i t' true := by
  unfold after at h
  dsimp only at h
  split at h
  · cases h
  · split at h
    · cases h
    · have ha := p.arm rfl
      generalize e1 : stopIfDone t = t1 at h
      have hc : t1.cnt = t.cnt ∧ t1.fireCnt = t.fireCnt ∧ (t1.started = true → t.started = true ∧ (t.fireCnt ≠ 0 → t.cnt < t.fireCnt)) := by
        subst e1
        unfold stopIfDone
        split
        · exact ⟨rfl, rfl, by simp⟩
        · rename_i hn; exact ⟨rfl, rfl, fun hs => ⟨hs, fun hf => by omega⟩⟩
      have hk : t'.cnt = t1.cnt ∧ t'.fireCnt = t1.fireCnt ∧ t'.started = t1.started := by
        injection h with h
        subst h
        split
        · have := schedule_fields { t1 with last := now } now wall
          exact ⟨this.2.1, this.2.2, this.1⟩
        · exact ⟨rfl, rfl, rfl⟩
      refine ⟨?_, ?_, ?_, ?_, ?_, by simp⟩
      · rw [hk.2.2]; exact fun hs => p.run (hc.2.2 hs).1
      · rw [hk.1, hc.1]; exact p.le
      · rw [hk.2.1, hc.2.1]; exact p.cnt
      · intro _ hs hf
        rw [hk.2.2] at hs
        rw [hk.2.1, hc.2.1] at hf ⊢
        have := (hc.2.2 hs).2 hf
        have := p.le
        omega
      · intro _ _ d hd
        rw [ha] at hd; cases hd

theorem after_false (t : T) (now wall : Nat) : after { t with started := false } now wall =
    if t.auto = true then none else if t.delay = true then none else some { t with started := false, last := now } := by
  unfold after stopIfDone
  by_cases h : t.fireCnt ≠ 0 ∧ t.cnt ≥ t.fireCnt <;> simp [h]

/-- A stopped timer is put back stopped. -/
theorem after_stopped {log : List Ev} {i : Nat} {t t' : T} {now wall : Nat} (p : P log i t true)
    (h : after { t with started := false } now wall = some t') : P log i t' true := by
  rw [after_false] at h
  split at h
  · cases h
  · split at h
    · cases h
    · injection h with h
      subst h
      exact ⟨by simp, p.le, p.cnt, by simp, by simp, by simp⟩

theorem step_inv {s s' : St} (I : Inv s) (st : Step s s') : Inv s' := by
  cases st with
  | tick now h => exact ⟨I.ids, I.used, I.logUsed, I.inq, I.inx, I.sorted, I.glob, I.fires, fun c l hc => Nat.le_trans (I.curr c l hc) h⟩
  | @add i q' hi h =>
    have hun := unseen (l := s.log) (i := i) (fun e he hc => hi (by rw [← hc]; exact I.logUsed e he))
    refine ⟨?_, ?_, fun e he => List.mem_cons_of_mem _ (I.logUsed e he), ?_, I.inx, h.sorted I.sorted, I.glob, I.fires, I.curr⟩
    · dsimp only
      rw [((h.perm.append_right _).map _).nodup_iff]
      rw [List.cons_append, List.map_cons, List.nodup_cons]
      refine ⟨?_, I.ids⟩
      intro hc
      obtain ⟨y, hy, e⟩ := List.mem_map.1 hc
      exact hi (by dsimp only at e; rw [← e]; exact I.used y hy)
    · intro x hx
      dsimp only at hx
      rw [(h.perm.append_right _).mem_iff, List.cons_append] at hx
      rcases List.mem_cons.1 hx with rfl | hx
      · simp
      · exact List.mem_cons_of_mem _ (I.used x hx)
    · intro x hx
      rcases (h.mem x).1 hx with rfl | hx
      · exact ⟨by simp [fresh], by dsimp only; rw [hun.2.1]; simp, by dsimp only; rw [hun.2.2.1]; rfl, by simp [fresh], by simp [fresh], by simp⟩
      · exact I.inq x hx
  | @start i t q' interval wall hm hi h =>
    exact I.replace hm h _ rfl (start_P (s := s) (I.inq _ hm) rfl interval s.now wall) (fireOk_skip (by simp)) s.pend (by simp [since])
  | @startExec i t interval wall hx hi =>
    exact I.replaceX hx _ rfl (start_P (s := s) (I.inx _ hx) rfl interval s.now wall) (fireOk_skip (by simp)) s.pend (by simp [since])
  | @stop i t q' hm h =>
    exact I.replace hm h _ rfl (stop_P (I.inq _ hm) _ (Or.inl rfl) rfl rfl rfl) (fireOk_skip (by simp)) s.pend (I.glob i)
  | @stopExec i t hx =>
    exact I.replaceX (t' := { t with started := false }) hx _ rfl (stop_P (t' := { t with started := false }) (I.inx _ hx) _ (Or.inl rfl) rfl rfl rfl) (fireOk_skip (by simp)) s.pend (I.glob i)
  | @setInterval i t l1 l2 interval h h1 h2 =>
    exact I.setq h rfl rfl rfl ((I.inq (i, t) (by rw [h]; simp)).same rfl rfl rfl rfl)
  | setIntervalExec interval hx => exact I.setx hx ((I.inx _ hx).same rfl rfl rfl rfl)
  | @setCnt i t l1 l2 n h =>
    have hids := I.ids
    rw [h] at hids
    have hm : (i, t) ∈ s.q := by rw [h]; simp
    have hne : ∀ y ∈ l1 ++ l2, y.1 ≠ i := by
      intro y hy e
      rw [List.map_append, List.nodup_append] at hids
      have h1 := hids.1
      rw [((List.perm_middle (a := (i, t)) (l₁ := l1) (l₂ := l2)).map _).nodup_iff, List.map_cons, List.nodup_cons] at h1
      exact h1.1 (List.mem_map.2 ⟨y, hy, e⟩)
    have hd : dequeue i s.q = l1 ++ l2 := by
      rw [h]
      unfold dequeue
      rw [List.filter_append, List.filter_cons_of_neg (by simp), ← List.filter_append]
      rw [List.filter_eq_self]
      intro y hy
      simpa using hne y hy
    have hsort := I.sorted
    rw [h] at hsort
    have hsort' := sorted_set (t := t) (t' := { t with fireCnt := n }) rfl rfl rfl hsort
    rw [List.pairwise_append, List.pairwise_cons] at hsort'
    refine I.replace (t' := { t with fireCnt := n }) hm ?_ _ rfl (setCnt_P (I.inq _ hm) n) (fireOk_skip (by simp)) s.pend (by simp [since])
    rw [hd]
    exact ⟨l1, l2, rfl, rfl, fun y hy => hsort'.2.2 y hy _ (by simp), hsort'.2.1.1⟩
  | @setCntExec i t n hx =>
    exact I.replaceX hx _ rfl (setCnt_P (I.inx _ hx) n) (fireOk_skip (by simp)) s.pend (by simp [since])
  | @set i t l1 l2 a b c d h => exact I.setq h rfl rfl rfl ((I.inq (i, t) (by rw [h]; simp)).same rfl rfl rfl rfl)
  | setExec a b c d hx => exact I.setx hx ((I.inx _ hx).same rfl rfl rfl rfl)
  | @remove i t hm =>
    have I1 := I.dequeue i s.pend
    have hids := I.ids
    rw [List.map_append, List.nodup_append] at hids
    refine ⟨I1.ids, I1.used, ?_, ?_, ?_, I1.sorted, ?_, (fireOk_skip (by simp)).2 I.fires, I.curr⟩
    · intro e he
      rcases List.mem_cons.1 he with rfl | he
      · exact I.used (i, t) (by simp [hm])
      · exact I.logUsed e he
    · intro x hx
      exact (I1.inq x hx).skip _ (Ne.symm (mem_dequeue.1 hx).2)
    · intro x hx
      refine (I.inx x hx).skip _ ?_
      exact hids.2.2 i (List.mem_map.2 ⟨_, hm, rfl⟩) x.1 (by dsimp only at hx; rw [hx]; simp)
    · exact I.glob
  | @removeExec i t hx =>
    exact I.replaceX (t' := { t with started := false, delay := true }) hx _ rfl (stop_P (t' := { t with started := false, delay := true }) (I.inx _ hx) _ (Or.inr rfl) rfl rfl rfl) (fireOk_skip (by simp)) s.pend (I.glob i)
  | @removeOther i t q' hm h =>
    exact I.replace hm h _ rfl (stop_P (I.inq _ hm) _ (Or.inr rfl) rfl rfl rfl) (fireOk_skip (by simp)) _ (I.glob i)
  | @removeOtherExec i t hx =>
    exact I.replaceX (t' := { t with started := false }) hx _ rfl (stop_P (t' := { t with started := false }) (I.inx _ hx) _ (Or.inr rfl) rfl rfl rfl) (fireOk_skip (by simp)) _ (I.glob i)
  | @removeCb i hp h => exact I.dequeue i _
  | enter h =>
    refine ⟨I.ids, I.used, I.logUsed, I.inq, I.inx, I.sorted, I.glob, I.fires, ?_⟩
    intro c l hc
    cases hc
    exact Nat.le_refl _
  | @fire x q curr last wall hp he hq hd hx =>
    have p := I.inq x (by rw [hq]; simp)
    have hids := I.ids
    have hsort := I.sorted
    have hused := I.used
    rw [he, hq] at hids hused
    rw [hq] at hsort
    unfold dueFirst at hd
    simp only [ne_eq, decide_eq_true_eq] at hd
    obtain ⟨_, hst, hdue⟩ := hd
    simp only [List.append_nil, Option.toList, List.map_cons, List.nodup_cons] at hids
    have hne : ∀ y ∈ q, y.1 ≠ x.1 := fun y hy e => hids.1 (List.mem_map.2 ⟨y, hy, e⟩)
    refine ⟨?_, ?_, ?_, ?_, ?_, (List.pairwise_cons.1 hsort).2, ?_, ?_, ?_⟩
    · dsimp only
      rw [List.map_append, List.nodup_append]
      refine ⟨hids.2, by simp, ?_⟩
      intro a ha b hb
      simp at hb
      obtain ⟨y, hy, rfl⟩ := List.mem_map.1 ha
      rw [hb]; exact hne y hy
    · intro y hy
      rcases List.mem_append.1 hy with hy | hy
      · exact hused y (by simp [hy])
      · simp at hy; rw [hy]; exact hused x (by simp)
    · intro e he
      rcases List.mem_cons.1 he with rfl | he
      · exact hused x (by simp)
      · exact I.logUsed e he
    · intro y hy
      exact (I.inq y (by rw [hq]; simp [hy])).skip _ (Ne.symm (hne y hy))
    · intro y hy
      cases hy
      refine ⟨p.run, ?_, p.cnt, by simp, by simp, by simp [armed]⟩
      simp only [since, if_true]
      have := p.le
      omega
    · intro j hj
      by_cases e2 : x.1 = j
      · subst e2
        have h1 := p.lt rfl hst
        have h2 := p.cnt
        simp only [since, cntOf, if_true] at hj ⊢
        rw [h2] at hj ⊢
        have := h1 hj
        omega
      · have hs := Verif.Timer.skip (.fire x.1 s.now x.2.next) s.log j e2
        dsimp only at hj ⊢
        rw [hs.2.2.1] at hj ⊢
        rw [hs.2.1]
        exact I.glob j hj
    · refine ⟨⟨p.run hst, ?_, p.due rfl hst⟩, I.fires⟩
      have h1 := I.curr curr last hp
      have h2 : ms curr ≤ ms s.now := Nat.div_le_div_right h1
      unfold diff at hdue
      omega
    · intro c l hc
      cases hc
      exact I.curr curr last hp
  | @expireFree x q curr last wall hp he hq hd hx ha =>
    have hids := I.ids
    have hsort := I.sorted
    have hused := I.used
    rw [hq] at hids hsort hused
    refine ⟨?_, ?_, I.logUsed, ?_, I.inx, (List.pairwise_cons.1 hsort).2, I.glob, I.fires, ?_⟩
    · rw [List.cons_append, List.map_cons, List.nodup_cons] at hids
      exact hids.2
    · intro y hy
      exact hused y (by rw [List.cons_append]; exact List.mem_cons_of_mem _ hy)
    · intro y hy
      exact I.inq y (by rw [hq]; exact List.mem_cons_of_mem _ hy)
    · intro c l hc
      cases hc
      exact I.curr curr last hp
  | @expireKeep x q q' curr last t wall hp he hq hd hx ha h =>
    have hids := I.ids
    have hsort := I.sorted
    have hused := I.used
    have p := I.inq x (by rw [hq]; simp)
    rw [hq] at hids hsort hused
    refine ⟨?_, ?_, I.logUsed, ?_, I.inx, h.sorted (List.pairwise_cons.1 hsort).2, I.glob, I.fires, ?_⟩
    · dsimp only
      rw [((h.perm.append_right _).map _).nodup_iff]
      exact hids
    · intro y hy
      dsimp only at hy
      rw [(h.perm.append_right _).mem_iff, List.cons_append] at hy
      rcases List.mem_cons.1 hy with rfl | hy
      · exact hused x (by simp)
      · exact hused y (by rw [List.cons_append]; exact List.mem_cons_of_mem _ hy)
    · intro y hy
      rcases (h.mem y).1 hy with rfl | hy
      · exact after_stopped p ha
      · exact I.inq y (by rw [hq]; exact List.mem_cons_of_mem _ hy)
    · intro c l hc
      cases hc
      exact Nat.le_refl _
  | @retFree i t wall hx ha =>
    refine ⟨?_, ?_, I.logUsed, I.inq, by simp, I.sorted, I.glob, I.fires, I.curr⟩
    · have hids := I.ids
      rw [List.map_append, List.nodup_append] at hids
      simpa using hids.1
    · intro y hy
      exact I.used y (by simp at hy; simp [hy])
  | @retKeep i t t' q' last curr wall hx hp ha h =>
    have hids := I.ids
    have hused := I.used
    rw [hx] at hids hused
    refine ⟨?_, ?_, I.logUsed, ?_, by simp, h.sorted I.sorted, I.glob, I.fires, ?_⟩
    · dsimp only
      rw [List.map_append, List.nodup_append] at hids
      have hp : ((q' ++ (none : Option (Nat × T)).toList).map (·.1)).Perm (i :: s.q.map (·.1)) := by
        rw [show q' ++ (none : Option (Nat × T)).toList = q' by simp]
        exact h.perm.map _
      rw [hp.nodup_iff, List.nodup_cons]
      refine ⟨fun hc => ?_, hids.1⟩
      exact hids.2.2 i hc i (by simp) rfl
    · intro y hy
      simp only [Option.toList, List.append_nil] at hy
      rcases (h.mem y).1 hy with rfl | hy
      · exact hused (i, t) (by simp)
      · exact hused y (by simp [hy])
    · intro y hy
      rcases (h.mem y).1 hy with rfl | hy
      · exact after_P (I.inx (i, t) hx) ha
      · exact I.inq y hy
    · intro c l hc
      cases hc
      exact Nat.le_refl _
  | leave hp he h => exact ⟨I.ids, I.used, I.logUsed, I.inq, I.inx, I.sorted, I.glob, I.fires, by simp⟩

theorem reach_inv {now : Nat} {s : St} (h : Reach now s) : Inv s := by
  induction h with
  | init => refine ⟨by simp [init], by simp [init], by simp [init], by simp [init], by simp [init], by simp [init], by simp [init, cntOf], trivial, by simp [init]⟩
  | step _ st ih => exact step_inv ih st

end Verif.Timer
