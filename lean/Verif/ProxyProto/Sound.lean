import Verif.ProxyProto.Binary
/-! What was accepted was a header. -/
namespace Verif.ProxyProto
open Verif.Chr Verif.Num

theorem find_some {pat : List UInt8} : ∀ {b : List UInt8} {n : Nat}, find pat b = some n → pat <+: b.drop n ∧ n ≤ b.length
  | [], n, h => by simp [find] at h
  | c :: s, n, h => by
    rw [find] at h
    split at h
    · next hp => injection h with h; subst h; exact ⟨List.isPrefixOf_iff_prefix.1 hp, by simp⟩
    · cases hs : find pat s with
      | none => rw [hs] at h; simp at h
      | some k =>
        rw [hs] at h
        simp at h
        subst h
        obtain ⟨h1, h2⟩ := find_some hs
        exact ⟨by simpa using h1, by simpa using h2⟩

theorem readUntil_inv {b pat : List UInt8} {cap : Nat} (h : (readUntil b pat cap).1 ≠ []) :
    ∃ q, b = (readUntil b pat cap).1 ++ pat ++ q ∧ (readUntil b pat cap).2 = pat ++ q := by
  unfold readUntil at *
  cases hf : find pat b with
  | none => rw [hf] at h; simp at h
  | some n =>
    obtain ⟨⟨q, h1⟩, h2⟩ := find_some hf
    rw [hf] at h
    by_cases hc : n > cap
    · simp [hc] at h
    · simp only [hc, if_false]
      refine ⟨q, ?_, h1.symm⟩
      rw [List.append_assoc, h1, List.take_append_drop]

theorem field_inv {b pat : List UInt8} {cap limit : Nat} {f : List UInt8 × List UInt8} {w : Bool}
    (h : field b pat cap limit = (some f, w)) : ∃ q, b = f.1 ++ pat ++ q ∧ f.2 = pat ++ q := by
  unfold field at h
  by_cases hc : (readUntil b pat cap).1 = []
  · rw [if_pos hc] at h; simp at h
  · rw [if_neg hc] at h
    simp only [Prod.mk.injEq, Option.some.injEq] at h
    obtain ⟨rfl, _⟩ := h
    exact readUntil_inv hc

theorem runList_cons_done {env : Env} {s : Stage} {ss : List Stage} {h h' : H} (hd : runList env (s :: ss) h = .done h') :
    exec env s h = .done h' ∨ ∃ g, exec env s h = .next g ∧ runList env ss g = .done h' := by
  rw [runList] at hd
  cases hx : exec env s h with
  | wait => rw [hx] at hd; cases hd
  | next g => rw [hx] at hd; exact .inr ⟨g, rfl, hd⟩
  | done g => rw [hx] at hd; injection hd with hd; subst hd; exact .inl rfl
  | err e => rw [hx] at hd; cases hd

theorem src_inv {env : Env} {ss : List Stage} {h h' : H} (hd : runList env (.src :: ss) h = .done h') :
    ∃ s q, h.buf = s ++ [32] ++ q ∧ (env.toBin (cstr s)).isSome ∧ runList env ss { h with src := some (cstr s), buf := q } = .done h' := by
  rcases runList_cons_done hd with hx | ⟨g, hx, hr⟩
  · dsimp only [exec, stSrc] at hx; repeat' split at hx
    all_goals cases hx
  · dsimp only [exec, stSrc] at hx
    split at hx
    · split at hx <;> cases hx
    · next f w hf =>
      split at hx
      · cases hx
      · next hb =>
        injection hx with hx
        subst hx
        obtain ⟨q, h1, h2⟩ := field_inv hf
        refine ⟨f.1, q, h1, by cases hc : env.toBin (cstr f.1) <;> simp_all, ?_⟩
        rw [h2] at hr
        exact hr

theorem dst_inv {env : Env} {ss : List Stage} {h h' : H} (hd : runList env (.dst :: ss) h = .done h') :
    ∃ s q, h.buf = s ++ [32] ++ q ∧ (env.toBin (cstr s)).isSome ∧ runList env ss { h with dst := some (cstr s), buf := q } = .done h' := by
  rcases runList_cons_done hd with hx | ⟨g, hx, hr⟩
  · dsimp only [exec, stDst] at hx; repeat' split at hx
    all_goals cases hx
  · dsimp only [exec, stDst] at hx
    split at hx
    · split at hx <;> cases hx
    · next f w hf =>
      split at hx
      · cases hx
      · next hb =>
        injection hx with hx
        subst hx
        obtain ⟨q, h1, h2⟩ := field_inv hf
        refine ⟨f.1, q, h1, by cases hc : env.toBin (cstr f.1) <;> simp_all, ?_⟩
        rw [h2] at hr
        exact hr

theorem sport_inv {env : Env} {ss : List Stage} {h h' : H} (hd : runList env (.sport :: ss) h = .done h') :
    ∃ s q, h.buf = s ++ [32] ++ q ∧ (1 ≤ toU32 s ∧ toU32 s ≤ 65535) ∧ runList env ss { h with sport := toU32 s, buf := q } = .done h' := by
  rcases runList_cons_done hd with hx | ⟨g, hx, hr⟩
  · dsimp only [exec, stSport] at hx; repeat' split at hx
    all_goals cases hx
  · dsimp only [exec, stSport] at hx
    split at hx
    · split at hx <;> cases hx
    · next f w hf =>
      split at hx
      · cases hx
      · next hb =>
        injection hx with hx
        subst hx
        obtain ⟨q, h1, h2⟩ := field_inv hf
        refine ⟨f.1, q, h1, by omega, ?_⟩
        rw [h2, Nat.mod_eq_of_lt (by omega)] at hr
        exact hr

theorem dport_inv {env : Env} {ss : List Stage} {h h' : H} (hd : runList env (.dport :: ss) h = .done h') :
    ∃ s q, h.buf = s ++ [13, 10] ++ q ∧ (1 ≤ toU32 s ∧ toU32 s ≤ 65535) ∧ runList env ss { h with dport := toU32 s, buf := q } = .done h' := by
  rcases runList_cons_done hd with hx | ⟨g, hx, hr⟩
  · dsimp only [exec, stDport] at hx; repeat' split at hx
    all_goals cases hx
  · dsimp only [exec, stDport] at hx
    split at hx
    · split at hx <;> cases hx
    · next f w hf =>
      split at hx
      · cases hx
      · next hb =>
        injection hx with hx
        subst hx
        obtain ⟨q, h1, h2⟩ := field_inv hf
        refine ⟨f.1, q, h1, by omega, ?_⟩
        rw [h2, Nat.mod_eq_of_lt (by omega)] at hr
        exact hr

/-- `hd` is a header that says `h`; `h.buf` is not looked at. -/
inductive Says (env : Env) : List UInt8 → H → Prop
  | unknown {b : List UInt8} : Says env [80, 82, 79, 88, 89, 32, 85, 78, 75, 78, 79, 87, 78, 13, 10] ⟨b, true, none, none, 0, 0, .any, 0⟩
  | text {b w s d ps pd : List UInt8} {six : Bool} (proto : (cstr w).map toLower = [116, 99, 112, if six then 54 else 52])
      (src : (env.toBin (cstr s)).isSome) (dst : (env.toBin (cstr d)).isSome)
      (sport : 1 ≤ toU32 ps ∧ toU32 ps ≤ 65535) (dport : 1 ≤ toU32 pd ∧ toU32 pd ≤ 65535) :
      Says env ([80, 82, 79, 88, 89, 32] ++ w ++ [32] ++ s ++ [32] ++ d ++ [32] ++ ps ++ [32] ++ pd ++ [13, 10])
        ⟨b, false, some (cstr s), some (cstr d), toU32 ps, toU32 pd, netOf six, 0⟩
  | binary {b s d ts td tlv : List UInt8} {proxy six : Bool} {sp dp : Nat} (slen : s.length = addrLen six) (dlen : d.length = addrLen six)
      (src : env.toText s = some ts) (dst : env.toText d = some td) (sport : 1 ≤ sp ∧ sp ≤ 65535) (dport : 1 ≤ dp ∧ dp ≤ 65535)
      (size : 2 * addrLen six + 4 + tlv.length < 65536) :
      Says env (headV2 proxy six s d sp dp tlv) ⟨b, !proxy, some ts, some td, sp, dp, netOf six, 0⟩
  | unspec {b tlv : List UInt8} {proxy : Bool} (size : tlv.length < 65536) :
      Says env (frontV2 proxy 0 tlv.length ++ tlv) ⟨b, !proxy, none, none, 0, 0, .any, tlv.length⟩

theorem v1_inv {env : Env} {b : List UInt8} {h : H} (hd : runList env stagesV1 ⟨b, true, none, none, 0, 0, .any, 0⟩ = .done h)
    (hp : idV1 <+: b) : ∃ hd, b = hd ++ h.buf ∧ Says env hd h := by
  obtain ⟨r, rfl⟩ := hp
  rcases runList_cons_done hd with hx | ⟨g, hx, hr⟩
  · dsimp only [exec, stHeader] at hx; repeat' split at hx
    all_goals cases hx
  dsimp only [exec, stHeader] at hx
  split at hx
  · cases hx
  split at hx
  · cases hx
  next hl h6 =>
  injection hx with hx
  obtain ⟨q, rfl⟩ : ∃ q, r = 32 :: q := by
    unfold consumeUntil at h6
    cases hf : find [32] (idV1 ++ r) with
    | none => rw [hf] at h6; simp at h6
    | some n =>
      rw [hf] at h6
      simp at h6
      obtain ⟨⟨q, h1⟩, _⟩ := find_some hf
      have : n = 5 := by omega
      subst this
      exact ⟨q, by simpa [idV1] using h1.symm⟩
  have e1 : consumeUntil (idV1 ++ 32 :: q) [32] = (6, q) := by
    unfold consumeUntil
    have := find_first (c := 32) (ds := []) q (t := [80, 82, 79, 88, 89]) (by decide)
    simp only [List.cons_append, List.nil_append] at this
    simp only [idV1, List.cons_append, List.nil_append]
    rw [this]
    rfl
  rw [e1] at hx
  subst hx
  rcases runList_cons_done hr with hx | ⟨g, hx, hr⟩
  · dsimp only [exec, stProto] at hx
    split at hx
    · cases hx
    split at hx
    · next hu =>
      injection hx with hx
      subst hx
      obtain ⟨y, rfl⟩ := List.isPrefixOf_iff_prefix.1 hu
      refine ⟨[80, 82, 79, 88, 89, 32, 85, 78, 75, 78, 79, 87, 78, 13, 10], ?_, .unknown⟩
      dsimp only
      rw [consume, if_neg (by simp [unknown])]
      rfl
    split at hx
    · cases hx
    split at hx <;> cases hx
  dsimp only [exec, stProto] at hx
  split at hx
  · cases hx
  split at hx
  · cases hx
  split at hx
  · cases hx
  next hw =>
  obtain ⟨q2, h1, h2⟩ := readUntil_inv hw
  generalize readUntil q [32] 15 = R at *
  obtain ⟨w, r2⟩ := R
  dsimp only at *
  subst h1
  split at hx
  · cases hx
  next n hn =>
  injection hx with hx
  subst hx
  rw [h2] at hr
  have e2 : consume ([32] ++ q2) 1 = q2 := rfl
  rw [e2] at hr
  obtain ⟨s, q3, h3, hs, r3⟩ := src_inv hr
  obtain ⟨d, q4, h4, hd', r4⟩ := dst_inv r3
  obtain ⟨ps, q5, h5, hps, r5⟩ := sport_inv r4
  obtain ⟨pd, q6, h7, hpd, r6⟩ := dport_inv r5
  clear hr r3 r4 r5
  dsimp only at h3 h4 h5 h7 r6
  subst h3 h4 h5 h7
  rw [runList] at r6
  injection r6 with r6
  subst r6
  have hsix : ∃ six : Bool, n = netOf six ∧ (cstr w).map toLower = [116, 99, 112, if six then 54 else 52] := by
    unfold protoNet at hn
    split at hn
    · next h => injection hn with hn; exact ⟨false, hn.symm, h⟩
    · split at hn
      · next h => injection hn with hn; exact ⟨true, hn.symm, h⟩
      · cases hn
  obtain ⟨six, rfl, hsx⟩ := hsix
  refine ⟨[80, 82, 79, 88, 89, 32] ++ w ++ [32] ++ s ++ [32] ++ d ++ [32] ++ ps ++ [32] ++ pd ++ [13, 10], ?_, .text hsx hs hd' hps hpd⟩
  simp [idV1]

theorem net16_be {l1 l2 : UInt8} : net16 (l1.toNat * 256 + l2.toNat) = [l1, l2] := by
  have h1 := l1.toNat_lt
  have h2 := l2.toNat_lt
  unfold net16
  rw [Nat.mul_add_mod_self_right, Nat.mod_eq_of_lt h2]
  have : (l1.toNat * 256 + l2.toNat) / 256 = l1.toNat := by omega
  rw [this, UInt8.ofNat_toNat, UInt8.ofNat_toNat]

theorem be16_lt (b : List UInt8) (i : Nat) : be16 b i < 65536 := by
  have h1 := (b.getD i 0).toNat_lt
  have h2 := (b.getD (i + 1) 0).toNat_lt
  unfold be16 byteAt
  omega

theorem take2 {b : List UInt8} {i : Nat} (h : i + 2 ≤ b.length) : (b.drop i).take 2 = net16 (be16 b i) := by
  unfold be16
  have e1 : byteAt b i = (b[i]'(by omega)).toNat := by
    unfold byteAt; rw [List.getD_eq_getElem?_getD, List.getElem?_eq_getElem (by omega)]; rfl
  have e2 : byteAt b (i + 1) = (b[i + 1]'(by omega)).toNat := by
    unfold byteAt; rw [List.getD_eq_getElem?_getD, List.getElem?_eq_getElem (by omega)]; rfl
  rw [e1, e2, net16_be, List.drop_eq_getElem_cons (by omega), List.drop_eq_getElem_cons (by omega)]
  rfl

theorem v2Addr_inv {env : Env} {n : Nat} {h g : H} (hx : v2Addr env n h = .next g) :
    ∃ s d ts td q sp dp, s.length = n ∧ d.length = n ∧ env.toText s = some ts ∧ env.toText d = some td ∧ (1 ≤ sp ∧ sp ≤ 65535) ∧
      (1 ≤ dp ∧ dp ≤ 65535) ∧ h.buf = s ++ d ++ net16 sp ++ net16 dp ++ q ∧
      g = { h with src := some ts, dst := some td, sport := sp, dport := dp, dlen := h.dlen - (2 * n + 4), buf := q } := by
  unfold v2Addr at hx
  split at hx
  · cases hx
  next hl =>
  split at hx
  · cases hx
  next ts hts =>
  split at hx
  · cases hx
  next td htd =>
  split at hx
  · cases hx
  next hsp =>
  split at hx
  · cases hx
  next hdp =>
  injection hx with hx
  have l1 := be16_lt h.buf (2 * n)
  have l2 := be16_lt h.buf (2 * n + 2)
  refine ⟨h.buf.take n, (h.buf.drop n).take n, ts, td, h.buf.drop (2 * n + 4), be16 h.buf (2 * n), be16 h.buf (2 * n + 2), by simp; omega,
    by simp; omega, hts, htd, by omega, by omega, ?_, hx.symm⟩
  rw [← take2 (by omega), ← take2 (by omega)]
  have a : h.buf.drop (2 * n + 4) = ((h.buf.drop (2 * n + 2)).drop 2) := by rw [List.drop_drop]
  have b : h.buf.drop (2 * n + 2) = ((h.buf.drop (2 * n)).drop 2) := by rw [List.drop_drop]
  have c : h.buf.drop (2 * n) = ((h.buf.drop n).drop n) := by rw [List.drop_drop]; congr 1; omega
  rw [a, List.append_assoc, List.take_append_drop, b, List.append_assoc, List.take_append_drop, c, List.append_assoc, List.take_append_drop,
    List.take_append_drop]

theorem v2_inv {env : Env} {b : List UInt8} {h : H} (hd : runList env stagesV2 ⟨b, true, none, none, 0, 0, .any, 0⟩ = .done h)
    (hp : idV2 <+: b) (hn : ¬ Short b) : ∃ hd, b = hd ++ h.buf ∧ Says env hd h := by
  obtain ⟨r, rfl⟩ := hp
  have hfront : 16 ≤ (idV2 ++ r).length → byteAt (idV2 ++ r) 12 / 16 = 2 → byteAt (idV2 ++ r) 12 % 16 = 0 ∨ byteAt (idV2 ++ r) 12 % 16 = 1 →
      ∃ fam q, idV2 ++ r = frontV2 (decide (byteAt (idV2 ++ r) 12 % 16 = 1)) fam (be16 (idV2 ++ r) 14) ++ q ∧ fam.toNat = byteAt (idV2 ++ r) 13 ∧
        (idV2 ++ r).drop 16 = q := by
    intro h1 h2 h3
    match r, h1, h2, h3 with
    | c :: f :: l1 :: l2 :: q, h1, h2, h3 =>
      refine ⟨f, q, ?_, rfl, rfl⟩
      have ec : byteAt (idV2 ++ c :: f :: l1 :: l2 :: q) 12 = c.toNat := rfl
      have el : be16 (idV2 ++ c :: f :: l1 :: l2 :: q) 14 = l1.toNat * 256 + l2.toNat := rfl
      rw [ec] at h2 h3
      rw [el, ec, frontV2, net16_be]
      have : c = if decide (c.toNat % 16 = 1) then 33 else 32 := by
        rcases h3 with h3 | h3
        · rw [h3]; simp only [← UInt8.toNat_inj]; simp; omega
        · rw [h3]; simp only [← UInt8.toNat_inj]; simp; omega
      rw [← this]
      rfl
    | [], h1, _, _ => simp [idV2] at h1
    | [_], h1, _, _ => simp [idV2] at h1
    | [_, _], h1, _, _ => simp [idV2] at h1
    | [_, _, _], h1, _, _ => simp [idV2] at h1
  generalize hB : idV2 ++ r = B at *
  have hloc : ∀ {k : Nat}, k = 0 ∨ k = 1 → decide (k = 0) = !decide (k = 1) := by
    intro k hk; rcases hk with rfl | rfl <;> rfl
  rcases runList_cons_done hd with hx | ⟨g, hx, hr⟩
  · dsimp only [exec, stV2Header] at hx
    split at hx
    · cases hx
    next hl =>
    split at hx
    · cases hx
    next hv =>
    split at hx
    · cases hx
    next hc =>
    have hc : byteAt B 12 % 16 = 0 ∨ byteAt B 12 % 16 = 1 := by omega
    obtain ⟨fam, q, e1, e2, e3⟩ := hfront (by omega) (by omega) hc
    split at hx
    · cases hx
    next n hf =>
    unfold headerEnd at hx
    cases n with
    | v4 => dsimp only at hx; split at hx <;> cases hx
    | v6 => dsimp only at hx; split at hx <;> cases hx
    | any =>
      injection hx with hx
      subst hx
      have h0 : byteAt B 13 = 0 := by
        unfold famNet at hf
        split at hf
        · assumption
        · split at hf
          · cases hf
          · split at hf <;> cases hf
      rw [h0] at e2
      have e4 : fam = 0 := UInt8.toNat_inj.1 e2
      subst e4
      have hlen : be16 B 14 ≤ q.length := by
        have : q.length = B.length - 16 := by rw [← e3, List.length_drop]
        unfold Short at hn
        clear hfront
        omega
      have e5 : (q.take (be16 B 14)).length = be16 B 14 := by rw [List.length_take]; omega
      refine ⟨frontV2 (decide (byteAt B 12 % 16 = 1)) 0 (q.take (be16 B 14)).length ++ q.take (be16 B 14), ?_, ?_⟩
      · dsimp only
        rw [e3, consume, if_neg (by omega), List.append_assoc, List.take_append_drop, e5]
        exact e1
      · have := Says.unspec (env := env) (b := consume (B.drop 16) (be16 B 14)) (tlv := q.take (be16 B 14))
          (proxy := decide (byteAt B 12 % 16 = 1)) (by rw [e5]; exact be16_lt _ _)
        rw [e5] at this ⊢
        rw [hloc hc]
        exact this
  dsimp only [exec, stV2Header] at hx
  split at hx
  · cases hx
  next hl =>
  split at hx
  · cases hx
  next hv =>
  split at hx
  · cases hx
  next hc =>
  have hc : byteAt B 12 % 16 = 0 ∨ byteAt B 12 % 16 = 1 := by omega
  obtain ⟨fam, q, e1, e2, e3⟩ := hfront (by omega) (by omega) hc
  split at hx
  · cases hx
  next n hf =>
  have hsix : ∃ six : Bool, n = netOf six ∧ fam = (if six then 33 else 17) ∧ 2 * addrLen six + 4 ≤ be16 B 14 ∧
      g = ⟨q, !decide (byteAt B 12 % 16 = 1), none, none, 0, 0, netOf six, be16 B 14⟩ := by
    unfold headerEnd at hx
    rw [e3, hloc hc] at hx
    rw [← e2] at hf
    cases n with
    | any => cases hx
    | v4 =>
      dsimp only at hx
      split at hx
      · cases hx
      next h12 =>
      injection hx with hx
      refine ⟨false, rfl, ?_, by dsimp only [addrLen]; simp; omega, hx.symm⟩
      apply UInt8.toNat_inj.1
      unfold famNet at hf
      split at hf
      · cases hf
      split at hf
      · assumption
      split at hf <;> cases hf
    | v6 =>
      dsimp only at hx
      split at hx
      · cases hx
      next h12 =>
      injection hx with hx
      refine ⟨true, rfl, ?_, by dsimp only [addrLen]; simp; omega, hx.symm⟩
      apply UInt8.toNat_inj.1
      unfold famNet at hf
      split at hf
      · cases hf
      split at hf
      · cases hf
      split at hf
      · assumption
      · cases hf
  obtain ⟨six, rfl, hfam, hlen, rfl⟩ := hsix
  have hl2 := be16_lt B 14
  rcases runList_cons_done hr with hx | ⟨g, hx, hr⟩
  · dsimp only [exec, stV2Addr, v2Addr] at hx; repeat' split at hx
    all_goals cases hx
  have hx : v2Addr env (addrLen six) ⟨q, !decide (byteAt B 12 % 16 = 1), none, none, 0, 0, netOf six, be16 B 14⟩ = .next g := by
    cases six <;> exact hx
  obtain ⟨s, d, ts, td, q2, sp, dp, s1, s2, s3, s4, s5, s6, s7, s8⟩ := v2Addr_inv hx
  dsimp only at s7 s8
  subst s8
  have fin : ∀ tlv q3, tlv.length = be16 B 14 - (2 * addrLen six + 4) → q2 = tlv ++ q3 →
      h = ⟨q3, !decide (byteAt B 12 % 16 = 1), some ts, some td, sp, dp, netOf six, 0⟩ → ∃ hd, B = hd ++ h.buf ∧ Says env hd h := by
    intro tlv q3 t1 t2 t3
    subst t3
    have hsize : 2 * addrLen six + 4 + tlv.length = be16 B 14 := by omega
    refine ⟨headV2 (decide (byteAt B 12 % 16 = 1)) six s d sp dp tlv, ?_, .binary s1 s2 s3 s4 s5 s6 (by omega)⟩
    refine e1.trans ?_
    rw [headV2, hsize, ← hfam, s7, t2]
    simp only [List.append_assoc]
  rcases runList_cons_done hr with hx | ⟨g, hx, hr⟩
  · dsimp only [exec, stV2Tlv] at hx
    split at hx
    · next h0 =>
      injection hx with hx
      subst hx
      exact fin [] q2 (by rw [h0]; rfl) rfl (by rw [h0])
    split at hx <;> cases hx
  · dsimp only [exec, stV2Tlv] at hx
    split at hx
    · cases hx
    split at hx
    · cases hx
    next h0 h1 =>
    injection hx with hx
    subst hx
    rw [runList] at hr
    injection hr with hr
    subst hr
    refine fin (q2.take (be16 B 14 - (2 * addrLen six + 4))) (q2.drop (be16 B 14 - (2 * addrLen six + 4))) (by rw [List.length_take]; omega)
      (List.take_append_drop _ _).symm ?_
    rw [consume, if_neg (by omega)]

theorem one_inv {env : Env} {fl : Flags} {b : List UInt8} {h : H} (hd : one env fl b = .done h) (hn : ¬ Early b) :
    ∃ hd, b = hd ++ h.buf ∧ Says env hd h ∧ (hd.head? = some 80 → AllowsV1 fl) ∧ (hd.head? = some 13 → AllowsV2 fl) := by
  rw [one_eq, runVersion] at hd
  split at hd
  · cases hd
  split at hd
  · next hp =>
    split at hd
    · cases hd
    next hf =>
    dsimp only at hp
    have hp := List.isPrefixOf_iff_prefix.1 hp
    obtain ⟨x, h1, h2⟩ := v1_inv hd hp
    refine ⟨x, h1, h2, fun _ h3 => ?_, fun h3 => ?_⟩
    · cases hv : fl.v1 with
      | true => rfl
      | false => exact absurd ⟨h3, by simp [hv]⟩ hf
    · obtain ⟨r, hr⟩ := hp
      rw [h1] at hr
      cases x with
      | nil => cases h3
      | cons a x => injection h3 with h3; subst h3; simp [idV1] at hr
  split at hd
  · next hp =>
    split at hd
    · cases hd
    next hf =>
    dsimp only at hp
    have hs : ¬ Short b := fun h => hn ⟨hp, h⟩
    have hp := List.isPrefixOf_iff_prefix.1 hp
    obtain ⟨x, h1, h2⟩ := v2_inv hd hp hs
    refine ⟨x, h1, h2, fun h3 => ?_, fun _ h3 => ?_⟩
    · obtain ⟨r, hr⟩ := hp
      rw [h1] at hr
      cases x with
      | nil => cases h3
      | cons a x => injection h3 with h3; subst h3; simp [idV2] at hr
    · cases hv : fl.v2 with
      | true => rfl
      | false => exact absurd ⟨h3, by simp [hv]⟩ hf
  · cases hd

/-- A connection that was made was made by some prefix of what arrived. -/
theorem feed_done {env : Env} {fl : Flags} : ∀ {ds : List (List UInt8)} {b : List UInt8} {p : Pos} {h h' : H}, one env fl b = .wait p h →
    feed env fl (.connecting p h) ds = .connected h' →
    ∃ c y g, b ++ ds.flatten = c ++ y ∧ one env fl c = .done g ∧ h' = ext g y
  | [], b, p, h, h', hw, hf => by cases hf
  | d :: ds, b, p, h, h', hw, hf => by
    rw [feed_cons hw] at hf
    cases ho : one env fl (b ++ d) with
    | wait q g =>
      rw [ho] at hf
      obtain ⟨c, y, k, h1, h2, h3⟩ := feed_done ho hf
      exact ⟨c, y, k, by rw [← h1, List.flatten_cons, List.append_assoc], h2, h3⟩
    | done g =>
      rw [ho, conn, feed_connected] at hf
      injection hf with hf
      exact ⟨b ++ d, ds.flatten, g, by rw [List.flatten_cons, List.append_assoc], ho, hf.symm⟩
    | err e => rw [ho, conn, feed_failed] at hf; cases hf

end Verif.ProxyProto
