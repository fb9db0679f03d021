import Verif.StrFmt.Sinks
/-! C92: formatted output. -/
namespace Verif.StrFmt

theorem doPrint_mbuf {t fmt : List UInt8} {ap : List Arg} (hok : ArgsOk ap) :
    (printLoop (fmt.length + 1) (.mbuf (some t)) fmt ap 0 = none ∧ doPrint (.mbuf (some t)) fmt ap = none) ∨
    ∃ x, printLoop (fmt.length + 1) (.mbuf (some t)) fmt ap 0 = some (.mbuf (some (t ++ x)), true, (x.length : Int)) ∧
      doPrint (.mbuf (some t)) fmt ap = some (.mbuf (some (t ++ x)), (x.length : Int)) := by
  rcases printLoop_cnt (fmt.length + 1) t fmt ap 0 hok with e | ⟨x, e⟩
  · exact .inl ⟨e, by unfold doPrint; rw [e]; rfl⟩
  · rw [Int.zero_add] at e
    exact .inr ⟨x, e, by unfold doPrint; rw [e]; rfl⟩

/-- What asprintf says about `doPrint`. -/
theorem asprintf_print {fmt : List UInt8} {ap : List Arg} (hok : ArgsOk ap) :
    (asprintf fmt ap = none ∧ printLoop (fmt.length + 1) (.mbuf (some [])) fmt ap 0 = none) ∨
    ∃ x, asprintf fmt ap = some (x, x.length) ∧ printLoop (fmt.length + 1) (.mbuf (some [])) fmt ap 0 = some (.mbuf (some x), true, (x.length : Int)) := by
  rcases doPrint_mbuf (t := []) (fmt := fmt) hok with ⟨e1, e2⟩ | ⟨x, e1, e2⟩
  · exact .inl ⟨by unfold asprintf bprintf; rw [e2]; rfl, e1⟩
  · refine .inr ⟨x, ?_, e1⟩
    unfold asprintf bprintf; rw [e2]; rfl

/-- The text that is made is what the format shows for the arguments. -/
theorem printf_render (items : List Item) (ap : List Arg) (txt : List UInt8) (hw : ∀ i ∈ items, i.wf) (hok : ArgsOk ap) (h : render items ap = some txt) :
    asprintf (items.flatMap Item.text) ap = some (txt, txt.length) := by
  have hl : ∀ l : List Item, l.length ≤ (l.flatMap Item.text).length := by
    intro l
    induction l with
    | nil => simp
    | cons i l ih =>
      have : 1 ≤ i.text.length := by cases i <;> simp [Item.text]
      rw [List.flatMap_cons, List.length_append, List.length_cons]; omega
  have := printLoop_items items ((items.flatMap Item.text).length + 1) [] ap 0 txt hw hok h (by have := hl items; omega)
  unfold asprintf bprintf doPrint
  rw [this]
  simp [flush]

/-- `%-5d|%05x|%.3s%%` of −42, 255 and a string that is not terminated. -/
example : render [.dir { flags := [.minus], width := some (.lit [5]), conv := .d }, .lit 124, .dir { flags := [.zero], width := some (.lit [5]), conv := .x }, .lit 124,
      .dir { prec := some (.lit [3]), conv := .s }, .percent] [.i (BitVec.ofInt 32 (-42)), .i 255, .s (some [97, 98, 99, 100])] =
    some [45, 52, 50, 32, 32, 124, 48, 48, 48, 102, 102, 124, 97, 98, 99, 37] := by
  have a : numeral 10 false 42 = [52, 50] := by rw [numeral, dif_pos (by decide), numeral, dif_neg (by decide)]; rfl
  have b : numeral 16 false 255 = [102, 102] := by rw [numeral, dif_pos (by decide), numeral, dif_neg (by decide)]; rfl
  simp only [render, Dir.render, getWidth, getPrec, Num.get, Option.bind_some, Conv.render, signedArg, unsignedArg, Option.map_some]
  rw [show ((BitVec.ofInt 32 (-42)).toInt.natAbs) = 42 by decide, show (255 : BitVec 32).toNat = 255 by decide, a, b]
  decide

/-- Every format: what is added to a buffer does not depend on what is in it, and its length is returned. -/
theorem bprintf_appends (buf fmt : List UInt8) (ap : List Arg) (hok : ArgsOk ap) :
    bprintf buf fmt ap = (asprintf fmt ap).map fun r => (buf ++ r.1, r.1.length) := by
  have hR := printLoop_rel (agree_buf buf) (fmt.length + 1) (s := .mbuf (some buf)) (m := .mbuf (some [])) ⟨[], by simp, rfl⟩ fmt ap 0
  rcases asprintf_print (fmt := fmt) hok with ⟨e1, e2⟩ | ⟨x, e1, e2⟩
  · rw [e2] at hR
    rcases hR with ⟨h, -⟩ | ⟨s, m, y, -, h, -⟩
    · rw [e1]; unfold bprintf doPrint; rw [h]; rfl
    · exact absurd h (by simp)
  · rw [e2] at hR
    rcases hR with ⟨-, h⟩ | ⟨s, m, y, h1, h2, t, rfl, hm⟩
    · exact absurd h (by simp)
    · simp only [Option.some.injEq, Prod.mk.injEq] at h2
      obtain ⟨rfl, rfl⟩ := h2
      simp only [Sink.mbuf.injEq, Option.some.injEq] at hm
      subst hm
      rw [e1]; unfold bprintf doPrint; rw [h1]
      simp [flush]
      omega

/-- Every format: `M_snprintf` returns the length of the whole text, stores as much of it as fits and a terminator, and touches nothing else. -/
theorem snprintf_prefix (m fmt : List UInt8) (size : Nat) (ap : List Arg) (hok : ArgsOk ap) (h0 : 0 < size) (hm : size ≤ m.length) :
    snprintf (some m) size fmt ap = (asprintf fmt ap).map fun r =>
      (some (r.1.take (size - 1) ++ [0] ++ m.drop (min r.1.length (size - 1) + 1)), r.1.length) := by
  have hR := printLoop_rel (agree_sbuf m size h0 hm) (fmt.length + 1) (s := .sbuf (some m) 0 size) (m := .mbuf (some [])) ⟨[], rfl, by simp⟩ fmt ap 0
  rcases asprintf_print (fmt := fmt) hok with ⟨e1, e2⟩ | ⟨x, e1, e2⟩
  · rw [e2] at hR
    rcases hR with ⟨h, -⟩ | ⟨s, m, y, -, h, -⟩
    · rw [e1]; unfold snprintf doPrint; rw [h]; rfl
    · exact absurd h (by simp)
  · rw [e2] at hR
    rcases hR with ⟨-, h⟩ | ⟨s, mm, y, h1, h2, t, hm', rfl⟩
    · exact absurd h (by simp)
    · simp only [Option.some.injEq, Prod.mk.injEq] at h2
      obtain ⟨rfl, rfl⟩ := h2
      simp only [Sink.mbuf.injEq, Option.some.injEq] at hm'
      subst hm'
      rw [e1]; unfold snprintf doPrint; rw [h1]
      simp only [Option.bind_some, if_true, flush, Option.map_some]
      rw [if_neg (by omega)]
      have hl : (x.take (size - 1)).length = min x.length (size - 1) := by rw [List.length_take]; omega
      have : wr (x.take (size - 1) ++ m.drop (min x.length (size - 1))) (min x.length (size - 1)) [0] =
          some (x.take (size - 1) ++ [0] ++ m.drop (min x.length (size - 1) + 1)) := by
        unfold wr
        rw [if_pos (by rw [List.length_append, hl, List.length_drop]; simp only [List.length_cons, List.length_nil]; omega)]
        rw [List.take_append_of_le_length (by omega), List.take_of_length_le (by omega), List.drop_append, List.drop_eq_nil_of_le (by rw [hl]; omega), List.nil_append, List.drop_drop,
          hl]
        simp only [List.length_cons, List.length_nil, Nat.zero_add]
        congr 3
        omega
      rw [this]
      simp only [Option.map_some, Option.bind_some, if_true]
      rw [if_neg (by omega)]
      simp

/-- Every format: without room, `M_snprintf` still returns the length and stores nothing. -/
theorem snprintf_measure (m : Option (List UInt8)) (fmt : List UInt8) (size : Nat) (ap : List Arg) (hok : ArgsOk ap) (h0 : m = none ∨ size = 0) :
    snprintf m size fmt ap = (asprintf fmt ap).map fun r => (m, r.1.length) := by
  have hR := printLoop_rel (agree_null m size) (fmt.length + 1) (s := .sbuf m 0 size) (m := .mbuf (some [])) ⟨h0, rfl, [], rfl⟩ fmt ap 0
  rcases asprintf_print (fmt := fmt) hok with ⟨e1, e2⟩ | ⟨x, e1, e2⟩
  · rw [e2] at hR
    rcases hR with ⟨h, -⟩ | ⟨s, m, y, -, h, -⟩
    · rw [e1]; unfold snprintf doPrint; rw [h]; rfl
    · exact absurd h (by simp)
  · rw [e2] at hR
    rcases hR with ⟨-, h⟩ | ⟨s, mm, y, h1, h2, -, rfl, -⟩
    · exact absurd h (by simp)
    · simp only [Option.some.injEq, Prod.mk.injEq] at h2
      obtain ⟨rfl, rfl⟩ := h2
      rw [e1]; unfold snprintf doPrint; rw [h1]
      cases m with
      | none => simp [flush]; omega
      | some m =>
        have h0 : size = 0 := by simpa using h0
        simp [flush, h0]; omega

/-- Every format: `M_dprintf` to a file that takes all that is written. -/
theorem dprintf_output_partial (env : Nat → Nat) (fmt : List UInt8) (ap : List Arg) (hok : ArgsOk ap) (he : ∀ i, 512 ≤ env i) :
    dprintf env fmt ap = (asprintf fmt ap).map fun r => (r.1, (r.1.length : Int)) := by
  have hR := printLoop_rel agree_fd (fmt.length + 1) (s := .fd env 0 [] []) (m := .mbuf (some [])) ⟨env, 0, [], [], [], he, rfl, rfl, rfl, by simp⟩ fmt ap 0
  rcases asprintf_print (fmt := fmt) hok with ⟨e1, e2⟩ | ⟨x, e1, e2⟩
  · rw [e2] at hR
    rcases hR with ⟨h, -⟩ | ⟨s, m, y, -, h, -⟩
    · rw [e1]; unfold dprintf doPrint; rw [h]; rfl
    · exact absurd h (by simp)
  · rw [e2] at hR
    rcases hR with ⟨-, h⟩ | ⟨s, mm, y, h1, h2, env', calls, wb, out, t, he', rfl, hm, ht, hw⟩
    · exact absurd h (by simp)
    · simp only [Option.some.injEq, Prod.mk.injEq] at h2
      obtain ⟨rfl, rfl⟩ := h2
      simp only [Sink.mbuf.injEq, Option.some.injEq] at hm
      subst hm
      rw [e1]; unfold dprintf doPrint; rw [h1]
      simp only [Option.bind_some, if_true, flush, Option.map_some]
      by_cases hz : wb.length = 0
      · rw [if_pos hz]
        have : wb = [] := List.eq_nil_of_length_eq_zero hz
        subst this
        simp at ht
        simp [ht]
      · rw [if_neg hz, if_neg (by have := he' calls; omega)]
        simp [ht]

/-- Every format: `M_fprintf` to a stream that takes all that is written. -/
theorem fprintf_output_partial (env : Nat → Bool) (fmt : List UInt8) (ap : List Arg) (hok : ArgsOk ap) (he : ∀ i, env i = true) :
    fprintf env fmt ap = (asprintf fmt ap).map fun r => (r.1, (r.1.length : Int)) := by
  have hR := printLoop_rel agree_stream (fmt.length + 1) (s := .stream env 0 []) (m := .mbuf (some [])) ⟨env, 0, [], he, rfl, rfl⟩ fmt ap 0
  rcases asprintf_print (fmt := fmt) hok with ⟨e1, e2⟩ | ⟨x, e1, e2⟩
  · rw [e2] at hR
    rcases hR with ⟨h, -⟩ | ⟨s, m, y, -, h, -⟩
    · rw [e1]; unfold fprintf doPrint; rw [h]; rfl
    · exact absurd h (by simp)
  · rw [e2] at hR
    rcases hR with ⟨-, h⟩ | ⟨s, mm, y, h1, h2, env', calls, t, he', rfl, hm⟩
    · exact absurd h (by simp)
    · simp only [Option.some.injEq, Prod.mk.injEq] at h2
      obtain ⟨rfl, rfl⟩ := h2
      simp only [Sink.mbuf.injEq, Option.some.injEq] at hm
      subst hm
      rw [e1]; unfold fprintf doPrint; rw [h1]
      simp [flush]

/-- The sign is lost when its write fails, and the result is no error: `%+05d` of 5. -/
theorem fprintf_error_fails : ¬ ∀ (env : Nat → Bool) (fmt : List UInt8) (ap : List Arg) (out : List UInt8) (n : Int), fprintf env fmt ap = some (out, n) → 0 ≤ n → asprintf fmt ap = some (out, out.length) := by
  intro h
  have hc : ∀ s, handleControl s [43, 48, 53, 100] [.i 5] = (addIntegerJust s 5 10 true .negpos false false 48 5 false).bind (done 4 [] []) := by
    intro s
    show (ctlLoop s 4 [53, 100] { sign := .negpos, padChar := 48 } [.i 5]) = _
    rw [ctlLoop.eq_def]
    dsimp only
    rw [if_neg (by decide), if_pos (by decide), if_neg (by decide), ctlLoop.eq_def]
    rfl
  have e1 : fprintf (fun i => decide (i ≠ 0)) [37, 43, 48, 53, 100] [.i 5] = some ([48, 48, 48, 53], 3) := by
    unfold fprintf doPrint
    simp only [List.length_cons, List.length_nil, printLoop, if_true, hc]
    decide
  have e2 : asprintf [37, 43, 48, 53, 100] [.i 5] = some ([43, 48, 48, 48, 53], 5) := by
    unfold asprintf bprintf doPrint
    simp only [List.length_cons, List.length_nil, printLoop, if_true, hc]
    decide
  have := h _ _ _ _ _ e1 (by decide)
  rw [e2] at this
  exact absurd this (by decide)

/-- `%Iu` takes a `size_t` at the end of a format, but not when more follows. -/
theorem printf_I_fails : (∀ v, asprintf [37, 73, 117, 32] [.l v] = none) ∧ asprintf [37, 73, 117] [.l 7] = some ([55], 1) := by
  constructor
  · intro v
    have hc : ∀ s, handleControl s [73, 117, 32] [.l v] = none := by
      intro s
      show (ctlLoop s 3 [73, 117, 32] {} [.l v]) = _
      rw [ctlLoop.eq_def]
      dsimp only
      rw [if_neg (by decide), if_neg (by decide), if_neg (by decide), if_neg (by decide), if_neg (by decide), if_pos rfl, if_neg (by decide), if_pos (by decide), if_neg (by decide), if_neg (by decide), ctlLoop.eq_def]
      rfl
    unfold asprintf bprintf doPrint
    simp only [List.length_cons, List.length_nil, printLoop, if_true, hc]
    rfl
  · have hc : ∀ s, handleControl s [73, 117] [.l 7] = (addIntegerJust s 7 10 true .neg false false 32 0 false).bind (done 2 [] []) := by
      intro s
      show (ctlLoop s 2 [73, 117] {} [.l 7]) = _
      rw [ctlLoop.eq_def]
      dsimp only
      rw [if_neg (by decide), if_neg (by decide), if_neg (by decide), if_neg (by decide), if_neg (by decide), if_pos rfl, if_neg (by decide), if_neg (by decide), ctlLoop.eq_def]
      rfl
    unfold asprintf bprintf doPrint
    simp only [List.length_cons, List.length_nil, printLoop, if_true, hc]
    decide

end Verif.StrFmt
