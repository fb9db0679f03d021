import Verif.Codepage.Lemmas
namespace Verif.Codepage
open Verif.Utf8

/-- The result after a result so far. -/
def comb (res r : Res) : Res := if r = .success then res else r

theorem enc_res {p rep eh cps r out} (h : Enc p rep eh cps r out) (he : eh ≠ .fail) : r = .success ∨ r = .handled := by
  induction h with
  | nil => exact Or.inl rfl
  | hit _ _ ih => exact ih
  | fail _ h => exact absurd h he
  | replace => exact Or.inr rfl
  | ignore => exact Or.inr rfl

theorem dec_res {p rep eh bs r out} (h : Dec p rep eh bs r out) (he : eh ≠ .fail) : r = .success ∨ r = .handled := by
  induction h with
  | nil => exact Or.inl rfl
  | hit _ _ ih => exact ih
  | fail _ h => exact absurd h he
  | replace => exact Or.inr rfl
  | ignore => exact Or.inr rfl

theorem comb_handled {r : Res} (h : r = .success ∨ r = .handled) : comb .handled r = .handled := by
  rcases h with rfl | rfl <;> rfl

theorem enc_det {p rep eh cps r out} (h : Enc p rep eh cps r out) : ∀ {r' out'}, Enc p rep eh cps r' out' → r = r' ∧ out = out' := by
  induction h with
  | nil => intro r' out' h'; cases h'; exact ⟨rfl, rfl⟩
  | hit hs _ ih =>
    intro r' out' h'
    cases h' with
    | hit hs' h' => obtain ⟨e1, e2⟩ := ih h'; rw [(std_inj hs hs' (Or.inr rfl)).1]; exact ⟨e1, by rw [e2]⟩
    | fail hn => exact absurd hs (hn _)
    | replace hn => exact absurd hs (hn _)
    | ignore hn => exact absurd hs (hn _)
  | fail hn he =>
    intro r' out' h'
    cases h' with
    | hit hs' => exact absurd hs' (hn _)
    | fail => exact ⟨rfl, rfl⟩
    | replace _ he' => rw [he] at he'; cases he'
    | ignore _ he' => rw [he] at he'; cases he'
  | replace hn he _ ih =>
    intro r' out' h'
    cases h' with
    | hit hs' => exact absurd hs' (hn _)
    | fail _ he' => rw [he] at he'; cases he'
    | replace _ _ h' => exact ⟨rfl, by rw [(ih h').2]⟩
    | ignore _ he' => rw [he] at he'; cases he'
  | ignore hn he _ ih =>
    intro r' out' h'
    cases h' with
    | hit hs' => exact absurd hs' (hn _)
    | fail _ he' => rw [he] at he'; cases he'
    | replace _ he' => rw [he] at he'; cases he'
    | ignore _ _ h' => exact ⟨rfl, (ih h').2⟩

theorem dec_det {p rep eh bs r out} (h : Dec p rep eh bs r out) : ∀ {r' out'}, Dec p rep eh bs r' out' → r = r' ∧ out = out' := by
  induction h with
  | nil => intro r' out' h'; cases h'; exact ⟨rfl, rfl⟩
  | hit hs _ ih =>
    intro r' out' h'
    cases h' with
    | hit hs' h' => obtain ⟨e1, e2⟩ := ih h'; rw [(std_inj hs hs' (Or.inl rfl)).2]; exact ⟨e1, by rw [e2]⟩
    | fail hn => exact absurd hs (hn _)
    | replace hn => exact absurd hs (hn _)
    | ignore hn => exact absurd hs (hn _)
  | fail hn he =>
    intro r' out' h'
    cases h' with
    | hit hs' => exact absurd hs' (hn _)
    | fail => exact ⟨rfl, rfl⟩
    | replace _ he' => rw [he] at he'; cases he'
    | ignore _ he' => rw [he] at he'; cases he'
  | replace hn he _ ih =>
    intro r' out' h'
    cases h' with
    | hit hs' => exact absurd hs' (hn _)
    | fail _ he' => rw [he] at he'; cases he'
    | replace _ _ h' => exact ⟨rfl, by rw [(ih h').2]⟩
    | ignore _ he' => rw [he] at he'; cases he'
  | ignore hn he _ ih =>
    intro r' out' h'
    cases h' with
    | hit hs' => exact absurd hs' (hn _)
    | fail _ he' => rw [he] at he'; cases he'
    | replace _ he' => rw [he] at he'; cases he'
    | ignore _ _ h' => exact ⟨rfl, (ih h').2⟩

/-- One round of the encoding loop on a code point. -/
theorem encodeLoop_cons (t : List (Nat × Nat)) (eh : Handler) (fuel : Nat) {u : Nat} (ha : Allowed u) (h0 : u ≠ 0)
    (s : List UInt8) {res : Res} (hr : res.isError = false) (out : List UInt8) :
    encodeLoop t eh (fuel + 1) (utf8 u ++ s) res out =
      match findByte t u with
      | some b => encodeLoop t eh fuel s res (out ++ [UInt8.ofNat b])
      | none =>
        match eh with
        | .fail => encodeLoop t eh fuel s .fail out
        | .replace => encodeLoop t eh fuel s .handled (out ++ [cpReplace])
        | .ignore => encodeLoop t eh fuel s .handled out := by
  obtain ⟨b, tl, h1, h2, _⟩ := utf8_head ha h0
  have hb : (utf8 u ++ s)[0]? = some b := by rw [h1]; rfl
  rw [encodeLoop, hb, Option.bind_some, if_neg (by rw [hr]; simp [h2]), getCp_utf8 ha h0]
  rw [Option.bind_some]
  dsimp only
  cases findByte t u <;> cases eh <;> rfl

theorem encodeLoop_spec (p : Page) (eh : Handler) (junk : List UInt8) (cps : List Nat) : ∀ fuel res out, Good cps →
    cps.length < fuel → res.isError = false →
    ∃ r o, encodeLoop (table p) eh fuel (flat cps ++ 0 :: junk) res out = some (comb res r, out ++ o) ∧ Enc p 63 eh cps r o := by
  induction cps with
  | nil =>
    intro fuel res out _ hf _
    cases fuel with
    | zero => simp at hf
    | succ fuel => exact ⟨.success, [], by simp [encodeLoop, flat, comb], .nil⟩
  | cons u cps ih =>
    intro fuel res out hg hf hr
    have hu := hg u (by simp)
    have hg' : Good cps := fun c hc => hg c (by simp [hc])
    cases fuel with
    | zero => simp at hf
    | succ fuel =>
      simp only [List.length_cons] at hf
      rw [flat_cons, List.append_assoc, encodeLoop_cons _ _ _ hu.1 hu.2 _ hr]
      by_cases hs : ∃ b, Std p b u
      · obtain ⟨b, hs⟩ := hs
        rw [findByte_some hs]
        obtain ⟨r, o, h1, h2⟩ := ih fuel res (out ++ [UInt8.ofNat b]) hg' (by omega) hr
        exact ⟨r, UInt8.ofNat b :: o, by simp only; rw [h1]; simp, .hit hs h2⟩
      · have hn : ∀ b, ¬ Std p b u := fun b h => hs ⟨b, h⟩
        rw [findByte_none hn]
        cases eh with
        | fail =>
          refine ⟨.fail, [], ?_, .fail hn rfl⟩
          obtain ⟨f, rfl⟩ : ∃ f, fuel = f + 1 := ⟨fuel - 1, by omega⟩
          simp only
          have hne : (flat cps ++ 0 :: junk) ≠ [] := by simp
          obtain ⟨x, xs, hx⟩ := List.exists_cons_of_ne_nil hne
          rw [hx, encodeLoop]
          simp [Res.isError, comb]
        | replace =>
          obtain ⟨r, o, h1, h2⟩ := ih fuel .handled (out ++ [cpReplace]) hg' (by omega) rfl
          refine ⟨.handled, 63 :: o, ?_, .replace hn rfl h2⟩
          simp only
          rw [h1, comb_handled (enc_res h2 nofun)]
          simp [comb, cpReplace]
        | ignore =>
          obtain ⟨r, o, h1, h2⟩ := ih fuel .handled out hg' (by omega) rfl
          refine ⟨.handled, o, ?_, .ignore hn rfl h2⟩
          simp only
          rw [h1, comb_handled (enc_res h2 nofun)]
          simp [comb]

/-- The loop meets a place that is not the form of an allowed code point. -/
theorem encodeLoop_bad (p : Page) {eh : Handler} (he : eh ≠ .fail) (cps : List Nat) (e : List UInt8) (h0 : e[0]? ≠ some 0)
    (hb : ∀ cp rest, Allowed cp → cp ≠ 0 → e ≠ utf8 cp ++ rest) : ∀ fuel res out, Good cps → res.isError = false →
    encodeLoop (table p) eh fuel (flat cps ++ e) res out = none := by
  induction cps with
  | nil =>
    intro fuel res out _ hr
    cases fuel with
    | zero => rfl
    | succ fuel =>
      rw [show flat [] ++ e = e from rfl, encodeLoop]
      cases hx : e[0]? with
      | none => rfl
      | some x =>
        rw [Option.bind_some, if_neg (by rw [hr]; rw [hx] at h0; simpa using h0)]
        cases hg : getCp e with
        | none => rfl
        | some y =>
          cases y with
          | error => rfl
          | ok z =>
            obtain ⟨cp, rest⟩ := z
            obtain ⟨k1, k2, k3⟩ := getCp_ok hg h0
            exact absurd k3 (hb cp rest k1 k2)
  | cons u cps ih =>
    intro fuel res out hg hr
    have hu := hg u (by simp)
    have hg' : Good cps := fun c hc => hg c (by simp [hc])
    cases fuel with
    | zero => rfl
    | succ fuel =>
      rw [flat_cons, List.append_assoc, encodeLoop_cons _ _ _ hu.1 hu.2 _ hr]
      split
      · exact ih _ _ _ hg' hr
      · cases eh with
        | fail => exact absurd rfl he
        | replace => exact ih _ _ _ hg' rfl
        | ignore => exact ih _ _ _ hg' rfl

theorem decodeLoop_spec (p : Page) (eh : Handler) (bs : List UInt8) : ∀ res out, 
    ∃ r o, decodeLoop (table p) eh bs res out = (comb res r, out ++ o) ∧ Dec p [0xFF, 0xFD] eh bs r o := by
  induction bs with
  | nil => intro res out; exact ⟨.success, [], by simp [decodeLoop, comb], .nil⟩
  | cons b bs ih =>
    intro res out
    unfold decodeLoop
    by_cases hs : ∃ u, Std p b.toNat u
    · obtain ⟨u, hs⟩ := hs
      rw [decodeByte_some hs]
      obtain ⟨r, o, h1, h2⟩ := ih res (out ++ utf8 u)
      exact ⟨r, utf8 u ++ o, by simp only; rw [h1]; simp, .hit hs h2⟩
    · have hn : ∀ u, ¬ Std p b.toNat u := fun u h => hs ⟨u, h⟩
      rw [decodeByte_none hn]
      cases eh with
      | fail => exact ⟨.fail, [], by simp [comb], .fail hn rfl⟩
      | replace =>
        obtain ⟨r, o, h1, h2⟩ := ih .handled (out ++ utf8Replace)
        refine ⟨.handled, [0xFF, 0xFD] ++ o, ?_, .replace hn rfl h2⟩
        simp only
        rw [h1, comb_handled (dec_res h2 nofun)]
        simp [comb, utf8Replace]
      | ignore =>
        obtain ⟨r, o, h1, h2⟩ := ih .handled out
        refine ⟨.handled, o, ?_, .ignore hn rfl h2⟩
        simp only
        rw [h1, comb_handled (dec_res h2 nofun)]
        simp [comb]

theorem chars_append (bs junk : List UInt8) (h : ∀ b ∈ bs, b ≠ 0) : chars (bs ++ 0 :: junk) = some bs := by
  induction bs with
  | nil => simp [chars]
  | cons b bs ih =>
    rw [List.cons_append, chars, if_neg (h b (by simp)), ih fun c hc => h c (by simp [hc])]
    rfl

theorem utf8_nz {u : Nat} (ha : Allowed u) (h0 : u ≠ 0) : ∀ b ∈ utf8 u, b ≠ 0 := by
  have hle := ha.1.1
  have key : ∀ n, n < 256 → n ≠ 0 → UInt8.ofNat n ≠ 0 := by
    intro n k1 k2 k3
    have t := toNat_ofNat k1
    rw [k3] at t; exact k2 (by simpa using t.symm)
  intro b hb
  unfold utf8 at hb
  split at hb
  · simp only [List.mem_cons, List.not_mem_nil, or_false] at hb
    subst hb; exact key _ (by omega) h0
  · split at hb
    · simp only [List.mem_cons, List.not_mem_nil, or_false] at hb
      rcases hb with rfl | rfl <;> exact key _ (by omega) (by omega)
    · split at hb
      · simp only [List.mem_cons, List.not_mem_nil, or_false] at hb
        rcases hb with rfl | rfl | rfl <;> exact key _ (by omega) (by omega)
      · simp only [List.mem_cons, List.not_mem_nil, or_false] at hb
        rcases hb with rfl | rfl | rfl | rfl <;> exact key _ (by omega) (by omega)

theorem flat_nz {cps : List Nat} (h : Good cps) : ∀ b ∈ flat cps, b ≠ 0 := by
  intro b hb
  obtain ⟨u, hu, hb⟩ := List.mem_flatMap.1 hb
  exact utf8_nz (h u hu).1 (h u hu).2 b hb

theorem isValid_flat {cps : List Nat} (junk : List UInt8) (hg : Good cps) : isValid (flat cps ++ 0 :: junk) = some (true, 0 :: junk) := by
  cases cps with
  | nil => simp [isValid, flat]
  | cons u cps =>
    have hu := hg u (by simp)
    obtain ⟨b, hb, hb0⟩ := flat_head hu.1 hu.2 cps (0 :: junk)
    have := flat_length (u :: cps)
    unfold isValid validateInt
    rw [hb]
    simp only [bind, Option.bind_some]
    rw [if_neg hb0, if_neg hb0, validateLoop_flat _ _ _ _ hg (by rw [List.length_append]; omega)]
    rfl

/-- Not a valid text, in terms of `M_utf8_is_valid`. -/
theorem isValid_bad {s : List UInt8} (hz : (0 : UInt8) ∈ s) (hn : ¬ ∃ cps junk, Good cps ∧ s = flat cps ++ 0 :: junk) :
    ∃ cps e, Good cps ∧ s = flat cps ++ e ∧ isValid s = some (false, e) ∧ e[0]? ≠ some 0 ∧
      ∀ cp rest, Allowed cp → cp ≠ 0 → e ≠ utf8 cp ++ rest := by
  obtain ⟨cps, e, h1, h2, h3 | h3⟩ := is_valid_correct s hz
  · refine absurd ⟨cps, e.tail, h1, ?_⟩ hn
    rw [h2]
    cases e with
    | nil => simp at h3
    | cons x e => simp at h3; rw [h3.2]; rfl
  · exact ⟨cps, e, h1, h2, h3⟩

theorem skipCont_spec : ∀ t : List UInt8, (0 : UInt8) ∈ t → ∃ cont c rest, t = cont ++ c :: rest ∧ skipCont t = some (c :: rest) ∧
    (∀ x ∈ cont, 0x80 ≤ x.toNat ∧ x.toNat ≤ 0xBF) ∧ ¬ (0x80 ≤ c.toNat ∧ c.toNat ≤ 0xBF) ∧ (0 : UInt8) ∈ c :: rest := by
  intro t
  induction t with
  | nil => intro h; cases h
  | cons x t ih =>
    intro h
    rw [skipCont]
    cases hx : isContinue x with
    | true =>
      have hx' := (isContinue_iff x).1 hx
      have : (0 : UInt8) ∈ t := by
        rcases List.mem_cons.1 h with h | h
        · rw [← h] at hx; exact absurd hx (by decide)
        · exact h
      obtain ⟨cont, c, rest, h1, h2, h3, h4⟩ := ih this
      refine ⟨x :: cont, c, rest, by rw [h1]; rfl, by simpa using h2, ?_, h4⟩
      intro y hy
      rcases List.mem_cons.1 hy with rfl | hy
      · exact hx'
      · exact h3 y hy
    | false =>
      refine ⟨[], x, t, rfl, by simp, nofun, ?_, h⟩
      intro hc
      rw [(isContinue_iff x).2 hc] at hx; cases hx

theorem clean_flat {rep : List UInt8} {cps : List Nat} (hg : Good cps) {e f o} (h : Clean rep e f o) :
    Clean rep (flat cps ++ e) f (flat cps ++ o) := by
  induction cps with
  | nil => exact h
  | cons u cps ih =>
    have hu := hg u (by simp)
    rw [flat_cons, List.append_assoc, List.append_assoc]
    exact .keep hu.1 hu.2 (ih fun c hc => hg c (by simp [hc]))

theorem utf8Loop_spec (enc : Bool) : ∀ fuel (s : List UInt8) res out, (0 : UInt8) ∈ s → s.length < fuel →
    ∃ f o, utf8Loop enc false fuel s res out = some (if f then .handled else res, out ++ o) ∧
      Clean (if enc then [63] else [0xFF, 0xFD]) s f o := by
  intro fuel
  induction fuel with
  | zero => intro s res out _ h; omega
  | succ fuel ih =>
    intro s res out hz hf
    rw [utf8Loop]
    obtain ⟨x, t, rfl⟩ := List.exists_cons_of_ne_nil (List.ne_nil_of_mem hz)
    rw [List.getElem?_cons_zero, Option.bind_some]
    by_cases hx : x = 0
    · subst hx
      rw [if_pos rfl]
      exact ⟨false, [], by simp, .nil⟩
    · rw [if_neg hx]
      obtain ⟨cps, e, h1, h2, h3⟩ := is_valid_correct (x :: t) hz
      have htake : (x :: t).take ((x :: t).length - e.length) = flat cps := by
        rw [h2, List.length_append, Nat.add_sub_cancel, List.take_left']
        rfl
      have hz' : (0 : UInt8) ∈ e := by
        rw [h2, List.mem_append] at hz
        rcases hz with hz | hz
        · exact absurd rfl (flat_nz h1 0 hz)
        · exact hz
      have hlen := congrArg List.length h2
      rw [List.length_append] at hlen
      rcases h3 with ⟨h3, h4⟩ | ⟨h3, h4, h5⟩
      · rw [h3, Option.bind_some]
        simp only
        rw [htake]
        have hpos : 0 < (flat cps).length := by
          cases cps with
          | nil => rw [show flat [] ++ e = e from rfl] at h2; rw [← h2] at h4; exact absurd (by simpa using h4) hx
          | cons u cps => have := flat_length (u :: cps); simp only [List.length_cons] at this; omega
        obtain ⟨f, o, k1, k2⟩ := ih e res (out ++ flat cps) hz' (by omega)
        refine ⟨f, flat cps ++ o, by rw [k1]; simp, ?_⟩
        rw [h2]; exact clean_flat h1 k2
      · rw [h3, Option.bind_some]
        simp only
        rw [htake]
        obtain ⟨y, e', rfl⟩ := List.exists_cons_of_ne_nil (List.ne_nil_of_mem hz')
        have hy : y ≠ 0 := by simpa using h4
        have hz'' : (0 : UInt8) ∈ e' := by
          rcases List.mem_cons.1 hz' with h | h
          · exact absurd h.symm hy
          · exact h
        obtain ⟨cont, c, rest, g1, g2, g3, g4, g5⟩ := skipCont_spec e' hz''
        have hn : nextChr (y :: e') = some (some (c :: rest)) := by
          unfold nextChr
          simp only [List.getElem?_cons_zero, bind, Option.bind_some]
          rw [if_neg hy, List.drop_one, List.tail_cons, g2]; rfl
        rw [hn, Option.bind_some, if_neg (by simp)]
        have hl2 := congrArg List.length g1
        simp only [List.length_append, List.length_cons] at hl2 hlen hf
        obtain ⟨f, o, k1, k2⟩ := ih (c :: rest) .handled (out ++ flat cps ++ if enc then [cpReplace] else utf8Replace) g5
          (by simp only [List.length_cons]; omega)
        refine ⟨true, flat cps ++ ((if enc then [63] else [0xFF, 0xFD]) ++ o), ?_, ?_⟩
        · simp only
          rw [k1]
          cases enc <;> simp [cpReplace, utf8Replace]
        · rw [h2, g1]
          refine clean_flat h1 (.bad hy ?_ g3 g4 k2)
          rw [← g1]
          exact fun u t => h5 u t

end Verif.Codepage
