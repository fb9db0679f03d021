import Verif.Shaping.Wake

/-! Runs. -/
namespace Verif.Shaping

theorem run_cons {h : H} {x : Call} {xs : List Call} {r : H × List Ev} (hr : run h (x :: xs) = some r) :
    ∃ a b, step x.c h x.op = some a ∧ run a.1 xs = some b ∧ r = (b.1, a.2 ++ b.2) := by
  unfold run at hr
  split at hr
  · cases hr
  · rename_i a ha
    cases hb : run a.1 xs with
    | none => rw [hb] at hr; cases hr
    | some b => rw [hb] at hr; cases hr; exact ⟨a, b, ha, hb, rfl⟩


theorem step_conf {c : Nat → Nat} {h : H} {op : Op} {r : H × List Ev} (hs : step c h op = some r) (rd : Bool) :
    (get r.1 rd).conf = conf1 rd (get h rd).conf op := by
  have quietOf : (∀ d' evs, Did c rd (get h rd) op d' evs → d'.conf = (get h rd).conf) → (get r.1 rd).conf = (get h rd).conf :=
    fun hh => hh _ _ (step_did hs rd)
  have movedConf : ∀ {n k k' : Nat} {d d1 : Dir}, transfer c n d k = some (d1, k') → d1.conf = d.conf := by
    intro n k k' d d1 ht
    obtain ⟨tr, _, rfl⟩ := transfer_eq ht
    rfl
  cases op with
  | throttle x b =>
    cases hs
    by_cases hx : x = rd
    · subst hx
      show (get (put h x _) x).conf = _
      rw [get_put_same]
      simp only [conf1, if_pos]
      rfl
    · show (get (put h x _) rd).conf = _
      rw [get_put_other _ _ _ _ hx]
      simp only [conf1, if_neg hx]
  | mode x b =>
    cases hs
    by_cases hx : x = rd
    · subst hx
      show (get (put h x _) x).conf = _
      rw [get_put_same]
      simp only [conf1, if_pos]
      rfl
    · show (get (put h x _) rd).conf = _
      rw [get_put_other _ _ _ _ hx]
      simp only [conf1, if_neg hx]
  | latency x b =>
    cases hs
    by_cases hx : x = rd
    · subst hx
      show (get (put h x _) x).conf = _
      rw [get_put_same]
      simp only [conf1, if_pos]
      rfl
    · show (get (put h x _) rd).conf = _
      rw [get_put_other _ _ _ _ hx]
      simp only [conf1, if_neg hx]
  | period x p f =>
    simp only [step] at hs
    by_cases hb : badPeriod p f = true
    · rw [if_pos hb] at hs
      cases hs
      simp only [conf1]
      rw [if_neg]
      rintro ⟨_, h1, h2, h3⟩
      simp only [badPeriod, Bool.or_eq_true, decide_eq_true_eq] at hb
      have h3 : f < p * 1000 % W := h3
      omega
    · rw [if_neg hb] at hs
      cases hs
      by_cases hx : x = rd
      · subst hx
        show (get (put h x _) x).conf = _
        rw [get_put_same]
        simp only [conf1]
        rw [if_pos]
        · rfl
        · simp only [badPeriod, Bool.or_eq_true, decide_eq_true_eq] at hb
          refine ⟨trivial, by omega, by omega, ?_⟩
          show f < p * 1000 % W
          omega
      · show (get (put h x _) rd).conf = _
        rw [get_put_other _ _ _ _ hx]
        simp only [conf1]
        rw [if_neg (fun hc => hx hc.1)]
  | _ =>
    refine quietOf ?_
    intro d' evs hd
    cases hd with
    | quiet hq _ => exact hq.conf.1
    | moved _ _ _ _ _ ht hq => rw [hq.conf.1, movedConf ht]
    | throttle hop => cases hop
    | mode hop => cases hop
    | period hop => cases hop
    | latency hop => cases hop

theorem run_conf {rd : Bool} : ∀ {calls : List Call} {h : H} {r : H × List Ev}, run h calls = some r →
    (get r.1 rd).conf = calls.foldl (fun f x => conf1 rd f x.op) (get h rd).conf := by
  intro calls
  induction calls with
  | nil => intro h r hr; cases hr; rfl
  | cons x xs ih =>
    intro h r hr
    obtain ⟨a, b, h1, h2, rfl⟩ := run_cons hr
    rw [List.foldl_cons, ← step_conf h1 rd]
    exact ih (r := b) h2

theorem conf_create {rd : Bool} {calls : List Call} {r : H × List Ev} (hr : run create calls = some r) :
    (get r.1 rd).conf = confAfter rd calls := by
  rw [run_conf hr]
  unfold confAfter
  cases rd <;> rfl

/-- What holds without any assumption about the settings. -/
structure Light (now : Nat) (d : Dir) : Prop where
  freq : d.conf.freq < periodMs d.conf
  sum : d.tr.bytes = sumB d.tr.slots
  last : d.last ≤ now

theorem Light.q {now : Nat} {c : Nat → Nat} {d d' : Dir} (h : Light now d) (hq : Q c d d') : Light now d' := by
  induction hq with
  | refl => exact h
  | exp k _ ih => exact ⟨ih.freq, expired_sum c _ _ k (by have := ih.freq; omega) ih.sum, ih.last⟩
  | flags w f _ ih => exact ⟨ih.freq, ih.sum, ih.last⟩

theorem Light.did {now e : Nat} {rd : Bool} {c : Nat → Nat} {d d' : Dir} {op : Op} {evs : List Ev} (h : Light now d) (hm : Mono c)
    (hnow : now ≤ c 0) (he : ∀ j, c j ≤ e) (hd : Did c rd d op d' evs) : Light e d' := by
  have hne : now ≤ e := Nat.le_trans hnow (he 0)
  have h' : Light e d := ⟨h.freq, h.sum, Nat.le_trans h.last hne⟩
  cases hd with
  | quiet hq _ => exact h'.q hq
  | moved _ _ _ _ _ ht hq =>
    refine Light.q ?_ hq
    obtain ⟨tr, ha, rfl⟩ := transfer_eq ht
    obtain ⟨pre, s, h1, _, _, h4, h5⟩ := add_spec ha hm
    refine ⟨h.freq, ?_, he _⟩
    have hs : (expired c d.conf d.tr 1).1.bytes = sumB (expired c d.conf d.tr 1).1.slots := (h'.q (.exp 1 (.refl d))).sum
    have h5 : ((expired c d.conf d.tr 1).1.slots = pre ∧ s.bytes = _ ∧ _) ∨ (expired c d.conf d.tr 1).1.slots = _ := h5
    have h4 : tr.bytes = (expired c d.conf d.tr 1).1.bytes + _ := h4
    show tr.bytes = sumB tr.slots
    rw [h4, hs, h1, sumB_append]
    rcases h5 with ⟨e1, hb, _⟩ | e1
    · rw [e1]; simp [sumB, hb]
    · rw [e1, sumB_append]; simp [sumB]; omega
  | throttle _ => exact ⟨h.freq, rfl, h'.last⟩
  | mode _ => exact ⟨h.freq, rfl, h'.last⟩
  | period _ hb =>
    refine ⟨?_, rfl, h'.last⟩
    simp only [badPeriod, Bool.or_eq_false_iff, decide_eq_false_iff_not] at hb
    exact Nat.lt_of_not_le hb.2
  | latency _ => exact ⟨h.freq, h.sum, he 0⟩

theorem light_create (rd : Bool) : Light 0 (get create rd) := by
  cases rd <;> exact ⟨by decide, rfl, by decide⟩

theorem run_light {rd : Bool} : ∀ {calls : List Call} {h : H} {r : H × List Ev} {now fin : Nat}, Ordered now calls fin →
    run h calls = some r → Light now (get h rd) → Light fin (get r.1 rd) := by
  intro calls
  induction calls with
  | nil => intro h r now fin ho hr hl; cases hr; exact ⟨hl.freq, hl.sum, Nat.le_trans hl.last ho⟩
  | cons x xs ih =>
    intro h r now fin ho hr hl
    obtain ⟨a, b, h1, h2, rfl⟩ := run_cons hr
    obtain ⟨e, o1, o2, o3, o4⟩ := ho
    exact ih (r := b) o4 h2 (hl.did o2 o1 o3 (step_did h1 rd))

theorem run_cover {rd : Bool} {f : Conf} (hb : f.burst = true) (h0 : f.bps ≠ 0) (hfp : f.freq < periodMs f) :
    ∀ {calls : List Call} {h : H} {r : H × List Ev} {now fin : Nat} {es : List Ev}, Ordered now calls fin → run h calls = some r →
    (∀ x ∈ calls, Keeps rd x.op) → Cover rd f now (get h rd) es →
    (∀ a, movedIn rd a (a + (periodMs f - f.freq)) es ≤ f.bps * f.period % W) →
    ∀ a, movedIn rd a (a + (periodMs f - f.freq)) (es ++ r.2) ≤ f.bps * f.period % W := by
  intro calls
  induction calls with
  | nil => intro h r now fin es _ hr _ _ hw; cases hr; simpa using hw
  | cons x xs ih =>
    intro h r now fin es ho hr hk hc hw
    obtain ⟨a, b, h1, h2, rfl⟩ := run_cons hr
    obtain ⟨e, o1, o2, o3, o4⟩ := ho
    have := cover_step (by omega) hb h0 hfp hc hw o2 o1 o3 (hk x (by simp)) (step_did h1 rd)
    have h3 := ih o4 h2 (fun y hy => hk y (by simp [hy])) this.1 this.2
    simpa [List.append_assoc] using h3

theorem run_good : ∀ {calls : List Call} {h : H} {r : H × List Ev} {now fin : Nat}, Ordered now calls fin → run h calls = some r →
    (∀ x ∈ calls, Sane x.op) → (∀ rd, Good now (get h rd)) → ∀ rd, Good fin (get r.1 rd) := by
  intro calls
  induction calls with
  | nil => intro h r now fin ho hr _ hg rd; cases hr; exact (hg rd).mono ho
  | cons x xs ih =>
    intro h r now fin ho hr hs hg
    obtain ⟨a, b, h1, h2, rfl⟩ := run_cons hr
    obtain ⟨e, o1, o2, o3, o4⟩ := ho
    exact ih (r := b) o4 h2 (fun y hy => hs y (by simp [hy])) (fun rd => (hg rd).did o2 o1 o3 (hs x (by simp)) (step_did h1 rd))

theorem run_safe : ∀ {calls : List Call} {h : H} {now fin : Nat}, Ordered now calls fin → (∀ x ∈ calls, Sane x.op) → Calm h calls →
    (∀ rd, Good now (get h rd)) → ∃ r, run h calls = some r := by
  intro calls
  induction calls with
  | nil => intro h now fin _ _ _ _; exact ⟨_, rfl⟩
  | cons x xs ih =>
    intro h now fin ho hs hc hg
    obtain ⟨e, o1, o2, o3, o4⟩ := ho
    obtain ⟨a, h1, h2⟩ := step_safe hg o2 o1 o3 (hs x (by simp)) hc.1
    obtain ⟨b, hb⟩ := ih o4 (fun y hy => hs y (by simp [hy])) (hc.2 a h1) h2
    unfold run
    simp only [h1, hb]
    exact ⟨_, rfl⟩

theorem movedAll_append (rd : Bool) (x y : List Ev) : movedAll rd (x ++ y) = movedAll rd x + movedAll rd y := by
  induction x with
  | nil => simp [movedAll]
  | cons e es ih => cases e <;> simp only [List.cons_append, movedAll, ih] <;> omega

theorem movedAll_none (rd : Bool) (es : List Ev) (h : ∀ t n, Ev.moved rd t n ∉ es) : movedAll rd es = 0 := by
  induction es with
  | nil => rfl
  | cons e es ih =>
    have h' : ∀ t n, Ev.moved rd t n ∉ es := fun t n hm => h t n (List.mem_cons_of_mem _ hm)
    cases e with
    | moved x t n =>
      have : ¬ x = rd := by
        rintro rfl
        exact h t n (by simp)
      simp only [movedAll, if_neg this, ih h']
    | _ => exact ih h'

theorem Did.total {c : Nat → Nat} {rd : Bool} {d d' : Dir} {op : Op} {evs : List Ev} (h : Did c rd d op d' evs) :
    d'.total = d.total + movedAll rd evs := by
  cases h with
  | quiet hq hn => rw [hq.conf.2.2.1, movedAll_none rd _ hn]; rfl
  | moved _ _ _ _ _ ht hq =>
    obtain ⟨tr, _, rfl⟩ := transfer_eq ht
    rw [hq.conf.2.2.1]
    simp [movedAll]
  | throttle _ => rfl
  | mode _ => rfl
  | period _ _ => rfl
  | latency _ => rfl

theorem run_total {rd : Bool} : ∀ {calls : List Call} {h : H} {r : H × List Ev}, run h calls = some r →
    (get r.1 rd).total = (get h rd).total + movedAll rd r.2 := by
  intro calls
  induction calls with
  | nil => intro h r hr; cases hr; rfl
  | cons x xs ih =>
    intro h r hr
    obtain ⟨a, b, h1, h2, rfl⟩ := run_cons hr
    rw [ih h2, (step_did h1 rd).total, movedAll_append]
    omega

/-- Writes are apart. -/
theorem run_apart : ∀ {calls : List Call} {h : H} {r : H × List Ev} {now fin lat : Nat} {es : List Ev}, Ordered now calls fin →
    run h calls = some r → (∀ x ∈ calls, KeepsLat false x.op) → (get h false).conf.lat = lat → Light now (get h false) →
    (∀ t n, Ev.moved false t n ∈ es → t ≤ (get h false).last) → Apart lat es → Apart lat (es ++ r.2) := by
  intro calls
  induction calls with
  | nil => intro h r now fin lat es _ hr _ _ _ _ ha; cases hr; simpa using ha
  | cons x xs ih =>
    intro h r now fin lat es ho hr hk hl hli hlast ha
    obtain ⟨a, b, h1, h2, rfl⟩ := run_cons hr
    obtain ⟨e, o1, o2, o3, o4⟩ := ho
    have hd := step_did h1 false
    have hli' := hli.did o2 o1 o3 hd
    have key : (get a.1 false).conf.lat = lat ∧ (∀ t n, Ev.moved false t n ∈ es ++ a.2 → t ≤ (get a.1 false).last) ∧ Apart lat (es ++ a.2) := by
      have hquiet : (∀ t n, Ev.moved false t n ∉ a.2) → (get a.1 false).last = (get h false).last →
          (∀ t n, Ev.moved false t n ∈ es ++ a.2 → t ≤ (get a.1 false).last) ∧ Apart lat (es ++ a.2) := by
        intro hn he
        refine ⟨?_, ?_⟩
        · intro t n hm
          rw [he]
          rcases List.mem_append.mp hm with hm | hm
          · exact hlast t n hm
          · exact absurd hm (hn t n)
        · unfold Apart
          rw [List.pairwise_append]
          refine ⟨ha, ?_, ?_⟩
          · exact List.pairwise_iff_forall_sublist.mpr (by
              intro u v huv t1 n1 t2 n2 hu _
              subst hu
              exact absurd (huv.subset (by simp)) (hn t1 n1))
          · intro u _ v hv t1 n1 t2 n2 _ hv'
            subst hv'
            exact absurd hv (hn t2 n2)
      have hkx := hk x (by simp)
      revert hkx hquiet
      generalize get a.1 false = d' at *
      generalize a.2 = evs at *
      intro hquiet hkx
      generalize hx : x.op = op at *
      cases hd with
      | quiet hq hn => exact ⟨by rw [hq.conf.1]; exact hl, hquiet hn hq.conf.2.1⟩
      | @moved d1 _ len n k' w fl res hop hlat _ _ _ ht hq =>
        obtain ⟨tr, _, rfl⟩ := transfer_eq ht
        refine ⟨by rw [hq.conf.1]; exact hl, ?_, ?_⟩
        · intro t m hm
          rw [hq.conf.2.1]
          show t ≤ x.c _
          rcases List.mem_append.mp hm with hm | hm
          · have h3 := hlast t m hm
            have h4 := hli.last
            have h5 := o2 0 (maxSize x.c (get h false).conf (get h false).tr 1).2.2 (Nat.zero_le _)
            omega
          · simp at hm
            omega
        · unfold Apart
          rw [List.pairwise_append]
          refine ⟨ha, by simp, ?_⟩
          intro u hu v hv t1 n1 t2 n2 hu' hv'
          subst hu'
          simp at hv
          rw [hv'] at hv
          injection hv with _ ht2 _
          have h3 := hlast t1 n1 hu
          have h4 := hli.last
          have h5 := o2 0 (maxSize x.c (get h false).conf (get h false).tr 1).2.2 (Nat.zero_le _)
          unfold latency elapsed at hlat
          rw [hl] at hlat
          split at hlat
          · omega
          · rename_i hlt
            simp only [Bool.false_and, Bool.false_eq_true, if_false] at hlat
            omega
      | throttle _ => exact ⟨hl, hquiet (by simp) rfl⟩
      | mode _ => exact ⟨hl, hquiet (by simp) rfl⟩
      | period _ _ => exact ⟨hl, hquiet (by simp) rfl⟩
      | latency hop => subst hop; exact absurd rfl hkx
    have h3 := ih o4 h2 (fun y hy => hk y (by simp [hy])) key.1 hli' key.2.1 key.2.2
    simpa [List.append_assoc] using h3

end Verif.Shaping
