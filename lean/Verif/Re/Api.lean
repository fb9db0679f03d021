import Verif.Re.Longest
/-! From the matcher to the functions of `text/re/m_re.c`. -/
namespace Verif.Re
open Verif.Utf8 (flat Good utf8 Allowed)

theorem utf8_nz {cp : Nat} (h : cp ≠ 0) (hle : cp ≤ 0x10FFFF) : ∀ b ∈ utf8 cp, b ≠ 0 := by
  have key : ∀ n, n < 256 → n ≠ 0 → UInt8.ofNat n ≠ 0 := by
    intro n h1 h2 h3
    have := congrArg UInt8.toNat h3
    simp [UInt8.toNat_ofNat'] at this
    omega
  intro b hb
  unfold utf8 at hb
  split at hb
  · simp only [List.mem_cons, List.not_mem_nil, or_false] at hb; subst hb; exact key _ (by omega) h
  · split at hb
    · simp only [List.mem_cons, List.not_mem_nil, or_false] at hb; rcases hb with rfl | rfl <;> exact key _ (by omega) (by omega)
    · split at hb
      · simp only [List.mem_cons, List.not_mem_nil, or_false] at hb; rcases hb with rfl | rfl | rfl <;> exact key _ (by omega) (by omega)
      · simp only [List.mem_cons, List.not_mem_nil, or_false] at hb; rcases hb with rfl | rfl | rfl | rfl <;> exact key _ (by omega) (by omega)

theorem flat_nz {w : List Nat} (hg : Good w) : ∀ b ∈ flat w, b ≠ 0 := by
  intro b hb
  unfold flat at hb
  rw [List.mem_flatMap] at hb
  obtain ⟨c, hc, hb⟩ := hb
  exact utf8_nz (hg c hc).2 (hg c hc).1.1.1 b hb

theorem cLen_flat (l : List UInt8) (h : ∀ b ∈ l, b ≠ 0) (junk : List UInt8) : cLen (l ++ 0 :: junk) = l.length := by
  induction l with
  | nil => simp [cLen]
  | cons b l ih =>
    rw [List.cons_append, cLen, if_neg (h b (by simp)), ih (fun x hx => h x (by simp [hx]))]
    simp

/-- A text in which no read leaves the string. -/
def Text.safe : Text → Prop
  | .ub => False
  | .ch _ _ r => r.safe
  | _ => True

theorem scan_safe : ∀ n (s : List UInt8), (0 : UInt8) ∈ s → s.length < n → (scan n s).safe := by
  intro n
  induction n with
  | zero => intro s _ h; omega
  | succ n ih =>
    intro s h0 hl
    cases s with
    | nil => simp at h0
    | cons b s =>
      simp only [scan]
      split
      · trivial
      · next hb =>
        have hs := Utf8.decode_safe (b :: s) h0
        cases hd : Utf8.getCp (b :: s) with
        | none => exact absurd hd hs
        | some x =>
          cases x with
          | error e => trivial
          | ok p =>
            obtain ⟨cp, rest⟩ := p
            obtain ⟨h1, h2, h3⟩ := (Utf8.decode_correct (b :: s) rest cp (by simpa using hb)).1 hd
            have hne := List.length_pos_iff.2 (Utf8.utf8_ne_nil cp)
            have hlen := congrArg List.length h3
            rw [List.length_append] at hlen
            refine ih rest ?_ (by omega)
            rw [h3, List.mem_append] at h0
            rcases h0 with h0 | h0
            · exact absurd rfl (utf8_nz h2 h1.1.1 0 h0)
            · exact h0

theorem go_safe {alnum : Nat → Bool} {t : Tnfa} {nt : Nat} : ∀ (x : Text) pos prev r m, x.safe → go alnum t nt x pos prev r m ≠ .ub := by
  have hf : ∀ m, finish m ≠ .ub := by intro m; unfold finish; split <;> simp
  intro x
  induction x with
  | eos => intro pos prev r m _; simp only [go]; split <;> exact hf _
  | bad => intro pos prev r m _; simp [go]
  | ub => intro pos prev r m h; exact absurd h (by simp [Text.safe])
  | ch c w rest ih =>
    intro pos prev r m h
    simp only [go]
    split
    · exact hf _
    · exact ih _ _ _ _ h

variable {alnum : Nat → Bool} {t : Tnfa} {w : List Nat}

theorem run_flat (nt : Nat) (hg : Good w) (junk : List UInt8) :
    run alnum t nt (flat w ++ 0 :: junk) = go alnum t nt (textOf (w.drop 0)) (off w 0) (prevAt w 0) [] ⟨none, List.replicate nt (-1), false⟩ := by
  unfold run
  rw [scan_flat junk w _ hg (by
    have := Utf8.flat_length w
    simp only [List.length_append, List.length_cons]; omega), off_zero]
  rfl

theorem run_sound (h0 : alnum 0 = false) (hg : Good w) {nt : Nat} {junk : List UInt8} {eo : Nat} {tg : List Int}
    (h : run alnum t nt (flat w ++ 0 :: junk) = .ok eo tg) :
    ∃ i j hh, Path alnum t w i j t.final hh ∧ eo = off w j ∧ Tg w nt hh tg := by
  rw [run_flat nt hg] at h
  exact go_sound h0 hg w.length 0 [] _ (by omega) (fun e he => by simp at he) (fun p hp => by simp at hp) eo tg h

theorem run_total (h0 : alnum 0 = false) (hg : Good w) (nt : Nat) (junk : List UInt8) :
    (∃ eo tg, run alnum t nt (flat w ++ 0 :: junk) = .ok eo tg) ∨
    (run alnum t nt (flat w ++ 0 :: junk) = .nomatch ∧ ∀ i j hh, ¬ Path alnum t w i j t.final hh) := by
  rw [run_flat nt hg]
  refine go_complete h0 hg w.length 0 [] _ (by omega) (fun e he => by simp at he) (fun p hp => by simp at hp) (fun e he => by simp at he) rfl rfl
    ⟨fun i q h hi => by omega, fun i j h hi => by omega⟩

theorem run_best (h0 : alnum 0 = false) (hg : Good w) (hst : StartTag t) (hmin : t.minimals = []) (htie : t.numTags = 1 ∨ OneFinal t)
    {junk : List UInt8} {eo : Nat} {tg : List Int} (h : run alnum t t.numTags (flat w ++ 0 :: junk) = .ok eo tg) :
    ∃ i j, IsBest alnum t w i j ∧ eo = off w j ∧ tag0 tg = off w i := by
  rw [run_flat _ hg] at h
  obtain ⟨i, j, hh, hp, h1, h2, h3⟩ := go_good h0 hg hst hst.some_tag htie hmin w.length 0 [] _ (by omega)
    ⟨fun e he => by simp at he, by simp, by simp, fun e he => by simp at he,
      fun _ => ⟨fun i q h hi => by omega, fun i j h hi => by omega⟩, fun hn => absurd rfl hn⟩ eo tg h
  exact ⟨i, j, ⟨⟨hh, hp⟩, fun i' j' ⟨h', hp'⟩ => h3 i' j' h' hp'⟩, h1, h2⟩

theorem nest_zero (subs : List Sub) : ∀ n i pm, 0 < i → (nest subs n i pm)[0]? = pm[0]? := by
  intro n
  induction n with
  | zero => intro i pm _; rfl
  | succ n ih =>
    intro i pm hi
    simp only [nest]
    split
    · rfl
    · rw [ih _ _ (by omega), List.getElem?_set_ne (by omega)]

theorem fill_zero (hw : Whole t) (eo : Nat) (tg : List Int) (hne : tag0 tg ≠ -1) :
    (fill t eo (some tg))[0]? = some (tag0 tg, (eo : Int)) := by
  unfold fill
  have hsub := hw.sub
  have hse := (List.getElem?_eq_some_iff.1 hsub).1
  obtain ⟨n, hn⟩ : ∃ n, t.subs.length = n + 1 := ⟨t.subs.length - 1, by omega⟩
  rw [hn]
  simp only [nest, hsub, inParents]
  rw [nest_zero _ _ _ _ (by omega)]
  have hmap : (t.subs.map (subOf t eo (some tg)))[0]? = some (tag0 tg, (eo : Int)) := by
    rw [List.getElem?_map, hsub]
    have h1 : offOf t eo (some tg) 0 = tag0 tg := by unfold offOf; rw [if_neg (fun h => hw.endTag h.symm)]
    have h2 : offOf t eo (some tg) t.endTag = eo := by unfold offOf; rw [if_pos rfl]
    simp only [Option.map, subOf, h1, h2]
    rw [if_neg (by omega)]
  rw [List.getElem?_set_self (by rw [List.length_map]; exact hse), List.getD, hmap]
  rfl

theorem caps_idx : ∀ (pm : List (Int × Int)) i, ∀ c ∈ caps i pm, i ≤ c.idx := by
  intro pm
  induction pm with
  | nil => intro i c hc; simp [caps] at hc
  | cons p pm ih =>
    intro i c hc
    simp only [caps] at hc
    split at hc
    · have := ih _ c hc; omega
    · rcases List.mem_cons.1 hc with rfl | hc
      · simp
      · have := ih _ c hc; omega

theorem find_none_of {l : List Cap} (h : ∀ c ∈ l, 1 ≤ c.idx) : l.find? (fun c => c.idx == 0) = none := by
  rw [List.find?_eq_none]
  intro c hc
  have := h c hc
  simp; omega

theorem capIdx_zero {pm : List (Int × Int)} {so eo : Int} (h : pm[0]? = some (so, eo)) (hs : so ≠ -1) (he : eo ≠ -1) :
    capIdx (caps 0 pm) 0 = if so = 0 ∧ eo = 0 then none else some (so, eo - so) := by
  cases pm with
  | nil => simp at h
  | cons p pm =>
    simp at h
    subst h
    simp only [caps]
    by_cases hz : so = 0 ∧ eo = 0
    · rw [if_pos (.inl hz), if_pos hz]
      unfold capIdx
      rw [find_none_of (fun c hc => caps_idx pm 1 c hc)]
    · rw [if_neg (by omega), if_neg hz]
      rfl

/-- What a search finds. -/
theorem search_total (h0 : alnum 0 = false) (hg : Good w) (hp : Plain t) (junk : List UInt8) :
    (∃ m i j, search alnum t (flat w ++ 0 :: junk) = some (some m) ∧ IsBest alnum t w i j ∧ i ≤ j ∧ j ≤ w.length ∧
      capIdx m 0 = if j = 0 then none else some ((off w i : Int), (off w j : Int) - off w i)) ∨
    (search alnum t (flat w ++ 0 :: junk) = some none ∧ ∀ i j, ¬ Matches alnum t w i j) := by
  rcases run_total (t := t) h0 hg t.numTags junk with ⟨eo, tg, h⟩ | ⟨h, hno⟩
  · left
    obtain ⟨i, j, hb, h1, h2⟩ := run_best h0 hg hp.start hp.greedy hp.tie h
    obtain ⟨⟨hh, hpath⟩, _⟩ := id hb
    have hl := hpath.le
    refine ⟨caps 0 (fill t eo (some tg)), i, j, ?_, hb, hl.1, hl.2, ?_⟩
    · unfold search exec
      simp only [if_true, h]
      rw [if_pos hp.start.some_tag]
    · rw [capIdx_zero (fill_zero hp.whole eo tg (by omega)) (by omega) (by omega), h1, h2]
      by_cases hj : j = 0
      · have hi : i = 0 := by omega
        rw [if_pos hj, if_pos (by rw [hi, hj, off_zero]; simp)]
      · rw [if_neg hj, if_neg]
        intro hz
        exact hj ((off_eq_zero hl.2).1 (by omega))
  · right
    refine ⟨?_, fun i j ⟨hh, hp'⟩ => hno i j hh hp'⟩
    unfold search exec
    simp only [if_true, h]

theorem IsBest.unique {i j i' j' : Nat} (h : IsBest alnum t w i j) (h' : IsBest alnum t w i' j') : i = i' ∧ j = j' := by
  rcases h.2 i' j' h'.1 with a | a <;> rcases h'.2 i j h.1 with b | b <;> omega

theorem drop_flat {j : Nat} (hj : j ≤ w.length) (junk : List UInt8) :
    (flat w ++ 0 :: junk).drop (off w j) = flat (w.drop j) ++ 0 :: junk := by
  have : flat w = flat (w.take j) ++ flat (w.drop j) := by
    conv => lhs; rw [← List.take_append_drop j w]
    unfold flat
    rw [List.flatMap_append]
  rw [this, List.append_assoc]
  unfold off
  rw [List.drop_left]

theorem Good.drop {w : List Nat} (hg : Good w) (j : Nat) : Good (w.drop j) := fun c hc => hg c (List.mem_of_mem_drop hc)

theorem flat_drop_off {k j : Nat} : off (w.drop k) j + off w k = off w (k + j) := by
  unfold off
  rw [List.take_add]
  simp [flat]
  omega

end Verif.Re
