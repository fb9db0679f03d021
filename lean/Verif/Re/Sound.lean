import Verif.Re.Fold
/-! The main loop finds a match exactly when there is one. -/
namespace Verif.Re
open Verif.Utf8 (flat Good utf8)

variable {alnum : Nat → Bool} {t : Tnfa} {w : List Nat}

theorem Path.le {i j q : Nat} {h : List (List Nat × Nat)} (p : Path alnum t w i j q h) : i ≤ j ∧ j ≤ w.length := by
  induction p with
  | init hi _ _ => exact ⟨Nat.le_refl _, hi⟩
  | step _ _ hc _ _ _ ih =>
    have := (List.getElem?_eq_some_iff.1 hc).1
    omega

/-- Where the matcher stands before the `j`th character. -/
def here (w : List Nat) (j : Nat) : At := ⟨off w j, prevAt w j, nextAt w j⟩

/-- Every entry belongs to a path. -/
def SoundR (alnum : Nat → Bool) (t : Tnfa) (w : List Nat) (nt j : Nat) (r : List Ent) : Prop :=
  ∀ e ∈ r, ∃ i h, Path alnum t w i j e.st h ∧ Tg w nt h e.tags

/-- The match recorded belongs to a path. -/
def SoundM (alnum : Nat → Bool) (t : Tnfa) (w : List Nat) (nt j : Nat) (m : Best) : Prop :=
  ∀ p, m.eo = some p → ∃ i j' h, j' ≤ j ∧ Path alnum t w i j' t.final h ∧ p = off w j' ∧ Tg w nt h m.tags

theorem SoundM.mono {nt j j' : Nat} {m : Best} (h : SoundM alnum t w nt j m) (hj : j ≤ j') : SoundM alnum t w nt j' m := by
  intro p hp
  obtain ⟨i, k, hh, h1, h2⟩ := h p hp
  exact ⟨i, k, hh, by omega, h2⟩

section
variable (h0 : alnum 0 = false) (hg : Good w)
include h0 hg

theorem live_path {nt j : Nat} {r : List Ent} (hr : SoundR alnum t w nt j r) (hj : j < w.length) {q : Nat} {tg : List Int}
    (hm : (q, tg) ∈ live alnum t (here w (j + 1)) r) : ∃ i h, Path alnum t w i (j + 1) q h ∧ Tg w nt h tg := by
  obtain ⟨e, he, tr, htr, h1, h2, h3, rfl, rfl⟩ := mem_live.1 hm
  obtain ⟨i, h, hp, ht⟩ := hr e he
  have hc : w[j]? = some (prevAt w (j + 1)) := by simp only [prevAt]; rw [List.getElem?_eq_getElem hj]; rfl
  exact ⟨i, _, .step hp htr hc h1 h2 ((asrOk_iff h0 hg (by omega)).1 h3), Tg_step ht _ _⟩

theorem liveI_path {nt j : Nat} (hj : j ≤ w.length) {q : Nat} {tg : List Int} (hm : (q, tg) ∈ liveI alnum t nt (here w j)) :
    ∃ h, Path alnum t w j j q h ∧ Tg w nt h tg := by
  obtain ⟨tr, htr, h3, rfl, rfl⟩ := mem_liveI.1 hm
  exact ⟨_, .init hj htr ((asrOk_iff h0 hg hj).1 h3), Tg_init _ _ _ _⟩

theorem live_complete {j : Nat} {r : List Ent} {i q : Nat} {h : List (List Nat × Nat)}
    (hp : Path alnum t w i (j + 1) q h) (hi : i ≤ j)
    (hr : ∀ q' h', Path alnum t w i j q' h' → has r q' = true) : ∃ tg, (q, tg) ∈ live alnum t (here w (j + 1)) r := by
  cases hp with
  | init => omega
  | @step _ q' c h' tr hp ht hc hlo hhi ha =>
    obtain ⟨e, he, hes⟩ := has_iff.1 (hr q' h' hp)
    have hl := (List.getElem?_eq_some_iff.1 hc).1
    have hc' : (here w (j + 1)).prev = c := by simp [here, prevAt, hc]
    refine ⟨_, mem_live.2 ⟨e, he, tr, by rw [hes]; exact ht, by rw [hc']; exact hlo, by rw [hc']; exact hhi, ?_, rfl, rfl⟩⟩
    exact (asrOk_iff h0 hg (by omega)).2 ha

theorem liveI_complete {nt j q : Nat} {h : List (List Nat × Nat)} (hp : Path alnum t w j j q h) :
    ∃ tg, (q, tg) ∈ liveI alnum t nt (here w j) := by
  cases hp with
  | init hi ht ha => exact ⟨_, mem_liveI.2 ⟨_, ht, (asrOk_iff h0 hg hi).2 ha, rfl, rfl⟩⟩
  | step hp => have := hp.le; omega

theorem addInit_sound {nt j : Nat} {r : List Ent} {m : Best} (hj : j ≤ w.length) (hr : SoundR alnum t w nt j r)
    (hm : SoundM alnum t w nt j m) :
    SoundR alnum t w nt j (addInit alnum t nt (here w j) (r, m)).1 ∧
    SoundM alnum t w nt j (addInit alnum t nt (here w j) (r, m)).2 := by
  have hi := addInit_inv alnum t nt (here w j) (r, m)
  obtain ⟨r', e1, e2⟩ := hi.ext
  constructor
  · intro e he
    rw [e1] at he
    rcases List.mem_append.1 he with he | he
    · exact hr e he
    · obtain ⟨h, hp, ht⟩ := liveI_path h0 hg hj (e2 e he)
      exact ⟨j, h, hp, ht⟩
  · rcases hi.best with hb | ⟨tg, h1, _, h2⟩
    · rw [hb]; exact hm
    · rw [h2]
      intro p hp
      obtain ⟨h, hpa, ht⟩ := liveI_path h0 hg hj h1
      refine ⟨j, j, h, Nat.le_refl _, hpa, ?_, ht⟩
      simp only [Option.some.injEq] at hp
      rw [← hp]; rfl

omit h0 hg in
theorem weed_sound {nt j : Nat} {r : List Ent} {m : Best} (hr : SoundR alnum t w nt j r) (hm : SoundM alnum t w nt j m) :
    SoundR alnum t w nt j (weed t nt r m).1 ∧ SoundM alnum t w nt j (weed t nt r m).2 := by
  unfold weed
  split
  · exact ⟨fun e he => hr e (List.mem_filter.1 he).1, hm⟩
  · exact ⟨hr, hm⟩

theorem step_sound {nt j : Nat} {r : List Ent} {m : Best} (hj : j < w.length) (hr : SoundR alnum t w nt j r)
    (hm : SoundM alnum t w nt j m) :
    SoundR alnum t w nt (j + 1) (step alnum t nt (here w (j + 1)) r m).1 ∧
    SoundM alnum t w nt (j + 1) (step alnum t nt (here w (j + 1)) r m).2 := by
  have hi := step_inv alnum t nt (here w (j + 1)) r m
  constructor
  · intro e he
    exact live_path h0 hg hr hj (hi.from_c e he)
  · rcases hi.best with hb | ⟨tg, h1, h2⟩
    · rw [hb]; exact hm.mono (by omega)
    · rw [h2]
      intro p hp
      obtain ⟨i, h, hpa, ht⟩ := live_path h0 hg hr hj h1
      refine ⟨i, j + 1, h, Nat.le_refl _, hpa, ?_, ht⟩
      simp only [Option.some.injEq] at hp
      rw [← hp]; rfl

omit h0 hg in
/-- One pass of the main loop. -/
theorem go_ch {nt j c : Nat} (hc : w[j]? = some c) (r : List Ent) (m : Best) :
    go alnum t nt (textOf (w.drop j)) (off w j) (prevAt w j) r m =
    if m.eo ≠ none ∧ (nt = 0 ∨ r = []) then finish m
    else
      go alnum t nt (textOf (w.drop (j + 1))) (off w (j + 1)) (prevAt w (j + 1))
        (step alnum t nt (here w (j + 1))
          (weed t nt (if m.eo = none then addInit alnum t nt (here w j) (r, m) else (r, m)).1
            (if m.eo = none then addInit alnum t nt (here w j) (r, m) else (r, m)).2).1
          (weed t nt (if m.eo = none then addInit alnum t nt (here w j) (r, m) else (r, m)).1
            (if m.eo = none then addInit alnum t nt (here w j) (r, m) else (r, m)).2).2).1
        (step alnum t nt (here w (j + 1))
          (weed t nt (if m.eo = none then addInit alnum t nt (here w j) (r, m) else (r, m)).1
            (if m.eo = none then addInit alnum t nt (here w j) (r, m) else (r, m)).2).1
          (weed t nt (if m.eo = none then addInit alnum t nt (here w j) (r, m) else (r, m)).1
            (if m.eo = none then addInit alnum t nt (here w j) (r, m) else (r, m)).2).2).2 := by
  rw [textOf_drop hc]
  have e1 : here w j = ⟨off w j, prevAt w j, c⟩ := by simp [here, nextAt, hc]
  have e2 : here w (j + 1) = ⟨off w j + (utf8 c).length, c, (textOf (w.drop (j + 1))).next⟩ := by
    rw [textOf_drop_next]; simp [here, prevAt, hc, off_succ hc]
  have e3 : prevAt w (j + 1) = c := by simp [prevAt, hc]
  rw [e1, e2, e3, off_succ hc]
  rfl

omit h0 hg in
theorem go_end {nt : Nat} (r : List Ent) (m : Best) :
    go alnum t nt (textOf (w.drop w.length)) (off w w.length) (prevAt w w.length) r m =
    if m.eo = none then finish (addInit alnum t nt (here w w.length) (r, m)).2 else finish m := by
  have e : textOf (w.drop w.length) = .eos := by simp [textOf]
  rw [e]
  have e1 : here w w.length = ⟨off w w.length, prevAt w w.length, 0⟩ := by simp [here, nextAt]
  rw [e1]; rfl

omit h0 hg in
theorem finish_ok {m : Best} {eo : Nat} {tg : List Int} (h : finish m = .ok eo tg) : m.eo = some eo ∧ m.tags = tg := by
  unfold finish at h
  cases hm : m.eo with
  | none => rw [hm] at h; simp at h
  | some p => rw [hm] at h; simpa using h

theorem go_sound {nt : Nat} : ∀ n j r m, j + n = w.length → SoundR alnum t w nt j r → SoundM alnum t w nt j m →
    ∀ eo tg, go alnum t nt (textOf (w.drop j)) (off w j) (prevAt w j) r m = .ok eo tg →
      ∃ i j' h, Path alnum t w i j' t.final h ∧ eo = off w j' ∧ Tg w nt h tg := by
  have fin : ∀ j m, SoundM alnum t w nt j m → ∀ eo tg, finish m = .ok eo tg →
      ∃ i j' h, Path alnum t w i j' t.final h ∧ eo = off w j' ∧ Tg w nt h tg := by
    intro j m hm eo tg h
    obtain ⟨h1, h2⟩ := finish_ok h
    obtain ⟨i, j', hh, _, h3, h4, h5⟩ := hm eo h1
    exact ⟨i, j', hh, h3, h4, by rw [← h2]; exact h5⟩
  intro n
  induction n with
  | zero =>
    intro j r m hj hr hm eo tg h
    have : j = w.length := by omega
    subst this
    rw [go_end] at h
    split at h
    · exact fin _ _ (addInit_sound h0 hg (Nat.le_refl _) hr hm).2 eo tg h
    · exact fin _ _ hm eo tg h
  | succ n ih =>
    intro j r m hj hr hm eo tg h
    have hl : j < w.length := by omega
    rw [go_ch (List.getElem?_eq_getElem hl)] at h
    split at h
    · exact fin _ _ hm eo tg h
    · have ha : SoundR alnum t w nt j (if m.eo = none then addInit alnum t nt (here w j) (r, m) else (r, m)).1 ∧
          SoundM alnum t w nt j (if m.eo = none then addInit alnum t nt (here w j) (r, m) else (r, m)).2 := by
        split
        · exact addInit_sound h0 hg (by omega) hr hm
        · exact ⟨hr, hm⟩
      have hw := weed_sound ha.1 ha.2
      have hs := step_sound h0 hg hl hw.1 hw.2
      exact ih (j + 1) _ _ (by omega) hs.1 hs.2 eo tg h

/-! ### Completeness -/

omit h0 hg in
theorem weed_eo (nt : Nat) (r : List Ent) (m : Best) : (weed t nt r m).2.eo = m.eo := by
  unfold weed; split <;> rfl

omit h0 hg in
theorem weed_none {nt : Nat} {r : List Ent} {m : Best} (hm : m.eo = none → m.fresh = false) (he : m.eo = none) :
    weed t nt r m = (r, m) := by
  unfold weed; rw [hm he]; simp

omit h0 hg in
/-- A match once found is reported. -/
theorem go_keeps {nt : Nat} : ∀ n j r m, j + n = w.length → m.eo ≠ none →
    ∃ eo tg, go alnum t nt (textOf (w.drop j)) (off w j) (prevAt w j) r m = .ok eo tg := by
  have fin : ∀ m : Best, m.eo ≠ none → ∃ eo tg, finish m = .ok eo tg := by
    intro m hm
    unfold finish
    cases h : m.eo with
    | none => exact absurd h hm
    | some p => exact ⟨_, _, rfl⟩
  intro n
  induction n with
  | zero =>
    intro j r m hj hm
    have : j = w.length := by omega
    subst this
    rw [go_end, if_neg hm]
    exact fin m hm
  | succ n ih =>
    intro j r m hj hm
    rw [go_ch (List.getElem?_eq_getElem (show j < w.length by omega))]
    split
    · exact fin m hm
    · exact ih (j + 1) _ _ (by omega) ((step_inv alnum t nt (here w (j + 1)) _ _).keep (by rw [weed_eo]; exact hm))

/-- Everything reachable so far is in the list, and no match has been missed. -/
def Full (alnum : Nat → Bool) (t : Tnfa) (w : List Nat) (lim j : Nat) (r : List Ent) : Prop :=
  (∀ i q h, i < lim → Path alnum t w i j q h → has r q = true) ∧
  (∀ i j' h, i < lim → j' ≤ j → ¬ Path alnum t w i j' t.final h)

theorem addInit_full {nt j : Nat} {r : List Ent} {m : Best} (hf : Full alnum t w j j r) (hj : j ≤ w.length)
    (hsr : SoundR alnum t w nt j r) (hlt : ∀ e ∈ r, ∃ i h, i < j ∧ Path alnum t w i j e.st h)
    (he : (addInit alnum t nt (here w j) (r, m)).2.eo = none) :
    Full alnum t w (j + 1) j (addInit alnum t nt (here w j) (r, m)).1 := by
  have hi := addInit_inv alnum t nt (here w j) (r, m)
  obtain ⟨r', e1, _⟩ := hi.ext
  constructor
  · intro i q h hlim hp
    by_cases hij : i < j
    · obtain ⟨e, he, hes⟩ := has_iff.1 (hf.1 i q h hij hp)
      rw [e1]
      exact has_iff.2 ⟨e, List.mem_append.2 (.inl he), hes⟩
    · have : i = j := by omega
      subst this
      obtain ⟨tg, htg⟩ := liveI_complete (nt := nt) h0 hg hp
      exact hi.all_c _ htg
  · intro i j' h hlim hj' hp
    by_cases hij : i < j
    · exact hf.2 i j' h hij hj' hp
    · have h1 := hp.le
      have : i = j := by omega
      subst this
      have : j' = i := by omega
      subst this
      obtain ⟨tg, htg⟩ := liveI_complete (nt := nt) h0 hg hp
      refine hi.found ?_ tg htg he
      cases hh : has r t.final with
      | false => rfl
      | true =>
        obtain ⟨e, he, hes⟩ := has_iff.1 hh
        obtain ⟨i', h', h2, h3⟩ := hlt e he
        rw [hes] at h3
        exact absurd h3 (hf.2 i' j' h' h2 (Nat.le_refl _))

theorem step_full {nt j : Nat} {r : List Ent} {m : Best} (hf : Full alnum t w (j + 1) j r)
    (hm : m.eo = none) (he : (step alnum t nt (here w (j + 1)) r m).2.eo = none) :
    Full alnum t w (j + 1) (j + 1) (step alnum t nt (here w (j + 1)) r m).1 := by
  have hi := step_inv alnum t nt (here w (j + 1)) r m
  constructor
  · intro i q h hlim hp
    obtain ⟨tg, htg⟩ := live_complete h0 hg hp (by omega) (fun q' h' hp' => hf.1 i q' h' hlim hp')
    exact hi.all_c _ htg
  · intro i j' h hlim hj' hp
    by_cases hj : j' ≤ j
    · exact hf.2 i j' h hlim hj hp
    · have : j' = j + 1 := by omega
      subst this
      obtain ⟨tg, htg⟩ := live_complete h0 hg hp (by omega) (fun q' h' hp' => hf.1 i q' h' hlim hp')
      exact hi.found hm tg htg he

omit h0 hg in
theorem fresh_none {nt : Nat} {x : At} {r : List Ent} {m : Best} (hm : m.eo = none → m.fresh = false) :
    (addInit alnum t nt x (r, m)).2.eo = none → (addInit alnum t nt x (r, m)).2.fresh = false := by
  intro h
  rcases (addInit_inv alnum t nt x (r, m)).best with hb | ⟨tg, _, _, h2⟩
  · rw [hb] at h ⊢; exact hm h
  · rw [h2] at h; simp at h

omit h0 hg in
theorem fresh_step {nt : Nat} {x : At} {r : List Ent} {m : Best} (hm : m.eo = none → m.fresh = false) :
    (step alnum t nt x r m).2.eo = none → (step alnum t nt x r m).2.fresh = false := by
  intro h
  rcases (step_inv alnum t nt x r m).best with hb | ⟨tg, _, h2⟩
  · rw [hb] at h ⊢; exact hm h
  · rw [h2] at h; simp at h

theorem step_lt {nt j : Nat} {r : List Ent} {m : Best} (hj : j < w.length) (hsr : SoundR alnum t w nt j r) :
    ∀ e ∈ (step alnum t nt (here w (j + 1)) r m).1, ∃ i h, i < j + 1 ∧ Path alnum t w i (j + 1) e.st h := by
  intro e he
  obtain ⟨e', he', tr, htr, h1, h2, h3, h4, -⟩ := mem_live.1 ((step_inv alnum t nt (here w (j + 1)) r m).from_c e he)
  obtain ⟨i, h, hp, _⟩ := hsr e' he'
  have hc : w[j]? = some (prevAt w (j + 1)) := by simp only [prevAt]; rw [List.getElem?_eq_getElem hj]; rfl
  have := hp.le
  refine ⟨i, h ++ [(tr.tags, j + 1)], by omega, ?_⟩
  rw [h4]
  exact .step hp htr hc h1 h2 ((asrOk_iff h0 hg (by omega)).1 h3)

theorem go_complete {nt : Nat} : ∀ n j r m, j + n = w.length → SoundR alnum t w nt j r → SoundM alnum t w nt j m →
    (∀ e ∈ r, ∃ i h, i < j ∧ Path alnum t w i j e.st h) → m.eo = none → m.fresh = false → Full alnum t w j j r →
    ((∃ eo tg, go alnum t nt (textOf (w.drop j)) (off w j) (prevAt w j) r m = .ok eo tg) ∨
     (go alnum t nt (textOf (w.drop j)) (off w j) (prevAt w j) r m = .nomatch ∧
      ∀ i j' h, ¬ Path alnum t w i j' t.final h)) := by
  intro n
  induction n with
  | zero =>
    intro j r m hj hr hm hlt he hfr hf
    have : j = w.length := by omega
    subst this
    rw [go_end, if_pos he]
    cases ha : (addInit alnum t nt (here w w.length) (r, m)).2.eo with
    | some p => left; exact ⟨_, _, by unfold finish; rw [ha]⟩
    | none =>
      right
      refine ⟨by unfold finish; rw [ha], ?_⟩
      have := (addInit_full h0 hg hf (Nat.le_refl _) hr hlt ha).2
      intro i j' h hp
      have hl := hp.le
      exact this i j' h (by omega) hl.2 hp
  | succ n ih =>
    intro j r m hj hr hm hlt he hfr hf
    have hl : j < w.length := by omega
    rw [go_ch (List.getElem?_eq_getElem hl), if_neg (fun h => h.1 he), if_pos he]
    cases ha : (addInit alnum t nt (here w j) (r, m)).2.eo with
    | some p =>
      left
      exact go_keeps n (j + 1) _ _ (by omega)
        ((step_inv alnum t nt (here w (j + 1)) _ _).keep (by rw [weed_eo, ha]; simp))
    | none =>
      have hfull := addInit_full h0 hg hf (by omega) hr hlt ha
      have hs := addInit_sound h0 hg (by omega) hr hm
      have hfr' := fresh_none (alnum := alnum) (t := t) (nt := nt) (x := here w j) (r := r) (m := m) (fun _ => hfr)
      rw [weed_none hfr' ha]
      simp only
      cases hst : (step alnum t nt (here w (j + 1)) (addInit alnum t nt (here w j) (r, m)).1
          (addInit alnum t nt (here w j) (r, m)).2).2.eo with
      | some p => left; exact go_keeps n (j + 1) _ _ (by omega) (by rw [hst]; simp)
      | none =>
        have h1 := step_sound h0 hg hl hs.1 hs.2
        exact ih (j + 1) _ _ (by omega) h1.1 h1.2 (step_lt h0 hg hl hs.1) hst (fresh_step hfr' hst)
          (step_full h0 hg hfull ha hst)

end

end Verif.Re
