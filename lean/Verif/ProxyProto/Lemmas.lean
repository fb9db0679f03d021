import Verif.ProxyProto.Model
/-! Lemmas about the PROXY protocol reader: more data does not change what a state has decided. -/
namespace Verif.ProxyProto
open Verif.Chr

/-- The handle with more data buffered. -/
def ext (h : H) (x : List UInt8) : H := { h with buf := h.buf ++ x }

theorem prefix_append {p b x : List UInt8} (h : p.isPrefixOf b = true) : p.isPrefixOf (b ++ x) = true := by
  rw [List.isPrefixOf_iff_prefix] at *
  exact h.trans (List.prefix_append _ _)

theorem prefix_append_not {p b x : List UInt8} (hl : p.length ≤ b.length) (h : p.isPrefixOf b = false) :
    p.isPrefixOf (b ++ x) = false := by
  rw [← Bool.not_eq_true, List.isPrefixOf_iff_prefix] at *
  intro hp
  exact h (List.prefix_of_prefix_length_le hp (List.prefix_append _ _) hl)

theorem find_length {pat : List UInt8} : ∀ {b : List UInt8} {n : Nat}, find pat b = some n → n + pat.length ≤ b.length
  | [], n, h => by simp [find] at h
  | c :: s, n, h => by
    rw [find] at h
    split at h
    · next hp =>
      have := (List.isPrefixOf_iff_prefix.1 hp).length_le
      injection h with h; omega
    · cases hs : find pat s with
      | none => rw [hs] at h; simp at h
      | some k =>
        rw [hs] at h
        have := find_length hs
        simp at h
        simp; omega

theorem find_append {pat x : List UInt8} : ∀ {b : List UInt8} {n : Nat}, find pat b = some n → find pat (b ++ x) = some n
  | [], n, h => by simp [find] at h
  | c :: s, n, h => by
    rw [find] at h
    rw [List.cons_append, find]
    split at h
    · next hp => rw [if_pos (by rw [← List.cons_append]; exact prefix_append hp)]; exact h
    · next hp =>
      cases hs : find pat s with
      | none => rw [hs] at h; simp at h
      | some k =>
        have hl := find_length hs
        rw [if_neg, find_append hs]
        · rw [hs] at h; exact h
        · rw [← List.cons_append, prefix_append_not (by simp; omega) (Bool.eq_false_iff.2 hp)]; simp

theorem consume_append {b x : List UInt8} {n : Nat} (h : n ≤ b.length) : consume (b ++ x) n = consume b n ++ x := by
  unfold consume
  have : ¬ n > (b ++ x).length := by rw [List.length_append]; omega
  rw [if_neg this, if_neg (by omega), List.drop_append_of_le_length h]

theorem readUntil_append {b pat x : List UInt8} {cap : Nat} (h : (readUntil b pat cap).1 ≠ []) :
    readUntil (b ++ x) pat cap = ((readUntil b pat cap).1, (readUntil b pat cap).2 ++ x) ∧ pat.length ≤ (readUntil b pat cap).2.length := by
  unfold readUntil at *
  cases hf : find pat b with
  | none => rw [hf] at h; simp at h
  | some n =>
    have hl := find_length hf
    rw [hf] at h
    rw [find_append hf]
    by_cases hc : n > cap
    · simp [hc] at h
    · simp only [hc, if_false]
      rw [List.take_append_of_le_length (by omega), List.drop_append_of_le_length (by omega)]
      exact ⟨rfl, by rw [List.length_drop]; omega⟩

theorem field_append {b pat x : List UInt8} {cap limit : Nat} {f : List UInt8 × List UInt8} {w : Bool}
    (h : field b pat cap limit = (some f, w)) :
    field (b ++ x) pat cap limit = (some (f.1, f.2 ++ x), w) ∧ pat.length ≤ f.2.length := by
  unfold field at *
  by_cases hc : (readUntil b pat cap).1 = []
  · rw [if_pos hc] at h; simp at h
  · rw [if_neg hc] at h
    obtain ⟨h1, h2⟩ := readUntil_append (x := x) hc
    simp only [Prod.mk.injEq, Option.some.injEq] at h
    obtain ⟨rfl, rfl⟩ := h
    rw [h1, if_neg hc]
    exact ⟨rfl, h2⟩

theorem byteAt_append {b x : List UInt8} {i : Nat} (h : i < b.length) : byteAt (b ++ x) i = byteAt b i := by
  unfold byteAt
  rw [List.getD_eq_getElem?_getD, List.getD_eq_getElem?_getD, List.getElem?_append_left h]

theorem be16_append {b x : List UInt8} {i : Nat} (h : i + 1 < b.length) : be16 (b ++ x) i = be16 b i := by
  unfold be16
  rw [byteAt_append (by omega), byteAt_append h]

theorem exec_next {env : Env} {s : Stage} {h h' : H} (x : List UInt8) (hn : exec env s h = .next h') :
    exec env s (ext h x) = .next (ext h' x) := by
  cases s with
  | header =>
    dsimp only [exec, stHeader, ext] at *
    split at hn
    · cases hn
    next h1 =>
    split at hn
    · cases hn
    next h2 =>
    simp only [St.next.injEq] at hn
    subst hn
    rw [if_neg (by rw [List.length_append]; omega)]
    unfold consumeUntil at *
    cases hf : find [32] h.buf with
    | none => rw [hf] at h2; simp at h2
    | some n =>
      have := find_length hf
      rw [hf] at h2
      rw [find_append hf, if_neg h2]
      dsimp only
      rw [List.drop_append_of_le_length this]
  | proto =>
    dsimp only [exec, stProto, ext] at *
    split at hn
    · cases hn
    next h1 =>
    split at hn
    · cases hn
    next h2 =>
    split at hn
    · cases hn
    next h3 =>
    obtain ⟨h4, h5⟩ := readUntil_append (x := x) h3
    rw [if_neg (by rw [List.length_append]; omega), prefix_append_not (by simp only [unknown, List.length]; omega) (Bool.eq_false_iff.2 h2),
      if_neg (by simp), h4, if_neg h3]
    cases hp : protoNet (readUntil h.buf [32] 15).1 with
    | none => rw [hp] at hn; cases hn
    | some n =>
      rw [hp] at hn
      simp only [St.next.injEq] at hn
      subst hn
      simp only [hp]
      rw [consume_append (n := 1) h5]
  | src =>
    dsimp only [exec, stSrc, ext] at *
    cases hf : field h.buf [32] 63 40 with
    | mk o w =>
      cases o with
      | none => rw [hf] at hn; cases w <;> simp at hn
      | some f =>
        obtain ⟨h1, h2⟩ := field_append (x := x) hf
        rw [hf] at hn
        rw [h1]
        dsimp only at hn ⊢
        split at hn
        · cases hn
        next h3 =>
        simp only [St.next.injEq] at hn
        subst hn
        rw [if_neg h3, consume_append (n := 1) h2]
  | dst =>
    dsimp only [exec, stDst, ext] at *
    cases hf : field h.buf [32] 63 40 with
    | mk o w =>
      cases o with
      | none => rw [hf] at hn; cases w <;> simp at hn
      | some f =>
        obtain ⟨h1, h2⟩ := field_append (x := x) hf
        rw [hf] at hn
        rw [h1]
        dsimp only at hn ⊢
        split at hn
        · cases hn
        next h3 =>
        simp only [St.next.injEq] at hn
        subst hn
        rw [if_neg h3, consume_append (n := 1) h2]
  | sport =>
    dsimp only [exec, stSport, ext] at *
    cases hf : field h.buf [32] 7 5 with
    | mk o w =>
      cases o with
      | none => rw [hf] at hn; cases w <;> simp at hn
      | some f =>
        obtain ⟨h1, h2⟩ := field_append (x := x) hf
        rw [hf] at hn
        rw [h1]
        dsimp only at hn ⊢
        split at hn
        · cases hn
        next h3 =>
        simp only [St.next.injEq] at hn
        subst hn
        rw [if_neg h3, consume_append (n := 1) h2]
  | dport =>
    dsimp only [exec, stDport, ext] at *
    cases hf : field h.buf [13, 10] 7 5 with
    | mk o w =>
      cases o with
      | none => rw [hf] at hn; cases w <;> simp at hn
      | some f =>
        obtain ⟨h1, h2⟩ := field_append (x := x) hf
        rw [hf] at hn
        rw [h1]
        dsimp only at hn ⊢
        split at hn
        · cases hn
        next h3 =>
        simp only [St.next.injEq] at hn
        subst hn
        rw [if_neg h3, consume_append (n := 2) h2]
  | v2header =>
    dsimp only [exec, stV2Header, ext] at *
    split at hn
    · cases hn
    next h1 =>
    split at hn
    · cases hn
    next h2 =>
    split at hn
    · cases hn
    next h3 =>
    rw [if_neg (by rw [List.length_append]; omega), byteAt_append (by omega), if_neg h2, if_neg h3, byteAt_append (by omega)]
    cases hf : famNet (byteAt h.buf 13) with
    | none => rw [hf] at hn; cases hn
    | some n =>
      rw [hf] at hn
      dsimp only at hn ⊢
      rw [be16_append (by omega), List.drop_append_of_le_length (by omega)]
      unfold headerEnd at *
      cases n with
      | any => cases hn
      | v4 => dsimp only at hn ⊢; split at hn
              · cases hn
              · next h4 => rw [if_neg h4]; injection hn with hn; subst hn; rfl
      | v6 => dsimp only at hn ⊢; split at hn
              · cases hn
              · next h4 => rw [if_neg h4]; injection hn with hn; subst hn; rfl
  | v2addr =>
    have key : ∀ n, v2Addr env n h = .next h' → v2Addr env n (ext h x) = .next (ext h' x) := by
      intro n hn
      dsimp only [v2Addr, ext] at *
      split at hn
      · cases hn
      next h1 =>
      have e : h.buf.drop n ++ x = (h.buf ++ x).drop n := by rw [List.drop_append_of_le_length (by omega)]
      rw [if_neg (by rw [List.length_append]; omega), List.take_append_of_le_length (by omega), ← e,
        List.take_append_of_le_length (by rw [List.length_drop]; omega)]
      cases hs : env.toText (h.buf.take n) with
      | none => rw [hs] at hn; cases hn
      | some s =>
        rw [hs] at hn
        dsimp only at hn ⊢
        cases hd : env.toText ((h.buf.drop n).take n) with
        | none => rw [hd] at hn; cases hn
        | some d =>
          rw [hd] at hn
          dsimp only at hn ⊢
          rw [be16_append (by omega), be16_append (by omega)]
          split at hn
          · cases hn
          next h2 =>
          split at hn
          · cases hn
          next h3 =>
          injection hn with hn
          subst hn
          rw [if_neg h2, if_neg h3, List.drop_append_of_le_length (by omega)]
    simp only [exec, stV2Addr] at *
    have : (ext h x).net = h.net := rfl
    rw [this]
    split at hn
    · next hc => rw [if_pos hc]; exact key 4 hn
    · next hc => rw [if_neg hc]; exact key 16 hn
  | v2tlv =>
    dsimp only [exec, stV2Tlv, ext] at *
    split at hn
    · cases hn
    next h1 =>
    split at hn
    · cases hn
    next h2 =>
    injection hn with hn
    subst hn
    rw [if_neg h1, if_neg (by rw [List.length_append]; omega), consume_append (by omega)]

/-- The buffered start of a second version header without addresses whose declared length has not arrived. -/
def Short (b : List UInt8) : Prop := 16 ≤ b.length ∧ byteAt b 13 = 0 ∧ b.length < 16 + be16 b 14

theorem exec_done {env : Env} {s : Stage} {h h' : H} (x : List UInt8) (hs : s = .v2header → ¬ Short h.buf)
    (hn : exec env s h = .done h') : exec env s (ext h x) = .done (ext h' x) := by
  cases s with
  | header => simp only [exec, stHeader] at hn; repeat' split at hn
              all_goals cases hn
  | proto =>
    dsimp only [exec, stProto, ext] at *
    split at hn
    · cases hn
    next h1 =>
    split at hn
    · next h2 =>
      injection hn with hn
      subst hn
      rw [if_neg (by rw [List.length_append]; omega), if_pos (prefix_append h2), consume_append (by omega)]
    split at hn
    · cases hn
    split at hn <;> cases hn
  | src => simp only [exec, stSrc] at hn; repeat' split at hn
           all_goals cases hn
  | dst => simp only [exec, stDst] at hn; repeat' split at hn
           all_goals cases hn
  | sport => simp only [exec, stSport] at hn; repeat' split at hn
             all_goals cases hn
  | dport => simp only [exec, stDport] at hn; repeat' split at hn
             all_goals cases hn
  | v2header =>
    have hs := hs rfl
    dsimp only [exec, stV2Header, ext] at *
    split at hn
    · cases hn
    next h1 =>
    split at hn
    · cases hn
    next h2 =>
    split at hn
    · cases hn
    next h3 =>
    rw [if_neg (by rw [List.length_append]; omega), byteAt_append (by omega), if_neg h2, if_neg h3, byteAt_append (by omega)]
    cases hf : famNet (byteAt h.buf 13) with
    | none => rw [hf] at hn; cases hn
    | some n =>
      rw [hf] at hn
      dsimp only at hn ⊢
      rw [be16_append (by omega), List.drop_append_of_le_length (by omega)]
      unfold headerEnd at *
      cases n with
      | any =>
        have h0 : byteAt h.buf 13 = 0 := by
          unfold famNet at hf
          split at hf
          · assumption
          · split at hf
            · cases hf
            · split at hf <;> cases hf
        injection hn with hn
        subst hn
        dsimp only
        rw [consume_append]
        rw [List.length_drop]
        unfold Short at hs
        omega
      | v4 => dsimp only at hn; split at hn <;> cases hn
      | v6 => dsimp only at hn; split at hn <;> cases hn
  | v2addr =>
    simp only [exec, stV2Addr, v2Addr] at hn; repeat' split at hn
    all_goals cases hn
  | v2tlv =>
    dsimp only [exec, stV2Tlv, ext] at *
    split at hn
    · next h1 => injection hn with hn; subst hn; rw [if_pos h1]
    split at hn <;> cases hn

/-- The start of the sub machine of the second version is only run at its start. -/
theorem exec_wait_ext (h : H) (x y : List UInt8) : ext (ext h x) y = ext h (x ++ y) := by simp [ext]

theorem ext_nil (h : H) : ext h [] = h := by simp [ext]

/-- Where a list of states can be interrupted. -/
theorem runList_wait {env : Env} : ∀ {ss : List Stage} {h h' : H} {p : Pos}, runList env ss h = .wait p h' →
    ∃ pre s ss', p = .rest (s :: ss') ∧ ss = pre ++ s :: ss' ∧ exec env s h' = .wait
  | [], h, h', p, hw => by cases hw
  | s :: ss, h, h', p, hw => by
    rw [runList] at hw
    split at hw
    · next hx => injection hw with h1 h2; subst h1; subst h2; exact ⟨[], s, ss, rfl, rfl, hx⟩
    · next hx =>
      obtain ⟨pre, s', ss', h1, h2, h3⟩ := runList_wait hw
      exact ⟨s :: pre, s', ss', h1, by rw [h2]; rfl, h3⟩
    · cases hw
    · cases hw

theorem runList_wait_ext {env : Env} (x : List UInt8) : ∀ {ss : List Stage} {h h' : H} {p : Pos},
    runList env ss h = .wait p h' → ∃ ss', p = .rest ss' ∧ runList env ss (ext h x) = runList env ss' (ext h' x)
  | [], h, h', p, hw => by cases hw
  | s :: ss, h, h', p, hw => by
    rw [runList] at hw
    split at hw
    · next hx => injection hw with h1 h2; subst h1; subst h2; exact ⟨s :: ss, rfl, rfl⟩
    · next hx =>
      obtain ⟨ss', h1, h2⟩ := runList_wait_ext x hw
      refine ⟨ss', h1, ?_⟩
      rw [runList, exec_next x hx]
      exact h2
    · cases hw
    · cases hw

theorem runList_done_ext {env : Env} (x : List UInt8) : ∀ {ss : List Stage} {h h' : H},
    (.v2header ∈ ss → ss.head? = some .v2header ∧ .v2header ∉ ss.tail ∧ ¬ Short h.buf) → runList env ss h = .done h' →
    runList env ss (ext h x) = .done (ext h' x)
  | [], h, h', _, hd => by simp only [runList, Out.done.injEq] at hd ⊢; rw [hd]
  | s :: ss, h, h', hs, hd => by
    rw [runList] at hd
    split at hd
    · cases hd
    · next h1 hx =>
      rw [runList, exec_next x hx]
      dsimp only
      refine runList_done_ext x (fun hm => ?_) hd
      exact absurd hm (hs (List.mem_cons_of_mem _ hm)).2.1
    · next h1 hx =>
      injection hd with hd; subst hd
      rw [runList, exec_done x (fun e => (hs (by rw [e]; exact List.mem_cons_self)).2.2) hx]
    · cases hd

end Verif.ProxyProto
