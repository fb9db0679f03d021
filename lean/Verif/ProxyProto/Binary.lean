import Verif.ProxyProto.Text
/-! The binary form of the header. -/
namespace Verif.ProxyProto
open Verif.Chr Verif.Num

/-- A 16 bit number in network order. -/
def net16 (n : Nat) : List UInt8 := [UInt8.ofNat (n / 256), UInt8.ofNat (n % 256)]

/-- The sixteen bytes in front: signature, version 2 with the command, family, length of what follows. -/
def frontV2 (proxy : Bool) (fam : UInt8) (len : Nat) : List UInt8 :=
  [13, 10, 13, 10, 0, 13, 10, 81, 85, 73, 84, 10, if proxy then 33 else 32, fam] ++ net16 len

/-- The size of an address. -/
def addrLen (six : Bool) : Nat := if six then 16 else 4

/-- The binary form with addresses and ports, then `tlv` bytes of extensions. -/
def headV2 (proxy six : Bool) (s d : List UInt8) (sp dp : Nat) (tlv : List UInt8) : List UInt8 :=
  frontV2 proxy (if six then 33 else 17) (2 * addrLen six + 4 + tlv.length) ++ ((s ++ d ++ net16 sp ++ net16 dp) ++ tlv)

theorem be16_net {a b : List UInt8} {n i : Nat} (hn : n < 65536) (hi : a.length = i) : be16 (a ++ (net16 n ++ b)) i = n := by
  subst hi
  unfold be16
  have h0 := byteAt_right (a := a) (b := net16 n ++ b) (i := 0)
  rw [Nat.add_zero] at h0
  rw [h0, byteAt_right]
  simp only [byteAt, net16, List.cons_append, List.nil_append, List.getD_cons_zero, List.getD_cons_succ, UInt8.toNat_ofNat']
  omega

theorem back {env : Env} {fl : Flags} (ha : AllowsV2 fl) {proxy : Bool} {fam : UInt8} {n : Net} {len : Nat} (hl : len < 65536)
    (hf : famNet fam.toNat = some n) (q : List UInt8) :
    one env fl (frontV2 proxy fam len ++ q) =
      match headerEnd ⟨q, !proxy, none, none, 0, 0, n, len⟩ with
      | .wait => .wait (.rest stagesV2) (ext start (frontV2 proxy fam len ++ q))
      | .next h => runList env [.v2addr, .v2tlv] h
      | .done h => .done h
      | .err e => .err e := by
  have e1 : (frontV2 proxy fam len ++ q).length = 16 + q.length := by simp [frontV2, net16]; omega
  have e2 : idV1.isPrefixOf (frontV2 proxy fam len ++ q) = false := rfl
  have e3 : idV2.isPrefixOf (frontV2 proxy fam len ++ q) = true := rfl
  have e4 : byteAt (frontV2 proxy fam len ++ q) 12 = if proxy then 33 else 32 := by cases proxy <;> rfl
  have e5 : byteAt (frontV2 proxy fam len ++ q) 13 = fam.toNat := rfl
  have e6 : be16 (frontV2 proxy fam len ++ q) 14 = len := by
    unfold frontV2
    rw [List.append_assoc]
    exact be16_net hl rfl
  have e7 : (frontV2 proxy fam len ++ q).drop 16 = q := rfl
  generalize frontV2 proxy fam len ++ q = B at *
  rw [one_eq, runVersion, if_neg (by dsimp only; omega), if_neg (by dsimp only; rw [e2]; simp), if_pos (by exact e3),
    if_neg (by rintro ⟨h1, h2⟩; exact h2 (ha h1)), stagesV2, runList, exec, stV2Header, if_neg (by dsimp only; omega)]
  dsimp only
  rw [e4, if_neg (by cases proxy <;> simp), if_neg (by cases proxy <;> simp), e5, hf, e6, e7]
  dsimp only
  have e8 : decide ((if proxy = true then 33 else 32) % 16 = 0) = !proxy := by cases proxy <;> rfl
  rw [e8]
  rfl

theorem v2Addr_part {env : Env} {n : Nat} {h : H} (hl : h.buf.length < 2 * n + 4) : v2Addr env n h = .wait := by
  rw [v2Addr, if_pos hl]

theorem v2Addr_whole {env : Env} {n : Nat} {h : H} {s d ts td q : List UInt8} {sp dp : Nat} (hs : s.length = n) (hd : d.length = n)
    (hts : env.toText s = some ts) (htd : env.toText d = some td) (hsp : 1 ≤ sp ∧ sp ≤ 65535) (hdp : 1 ≤ dp ∧ dp ≤ 65535)
    (hb : h.buf = s ++ d ++ net16 sp ++ net16 dp ++ q) :
    v2Addr env n h = .next { h with src := some ts, dst := some td, sport := sp, dport := dp, dlen := h.dlen - (2 * n + 4), buf := q } := by
  subst hs
  have e1 : h.buf.take s.length = s := by rw [hb]; simp
  have e2 : (h.buf.drop s.length).take s.length = d := by rw [hb]; simp [hd.symm]
  have e3 : be16 h.buf (2 * s.length) = sp := by
    have : h.buf = (s ++ d) ++ (net16 sp ++ (net16 dp ++ q)) := by rw [hb]; simp
    rw [this]
    exact be16_net (by omega) (by simp [hd]; omega)
  have e4 : be16 h.buf (2 * s.length + 2) = dp := by
    have : h.buf = (s ++ d ++ net16 sp) ++ (net16 dp ++ q) := by rw [hb]; simp
    rw [this]
    exact be16_net (by omega) (by simp [hd, net16]; omega)
  have e5 : h.buf.drop (2 * s.length + 4) = q := by
    rw [hb]
    exact List.drop_left' (by simp [net16, hd]; omega)
  have e6 : 2 * s.length + 4 ≤ h.buf.length := by rw [hb]; simp [net16, hd]; omega
  rw [v2Addr, if_neg (by omega), e1, hts]
  dsimp only
  rw [e2, htd]
  dsimp only
  rw [e3, e4, if_neg (by omega), if_neg (by omega), e5]

theorem famNet_six (six : Bool) : famNet (if six then (33 : UInt8) else 17).toNat = some (netOf six) := by cases six <;> rfl

theorem reads_v2 {env : Env} {fl : Flags} {proxy six : Bool} {s d ts td tlv : List UInt8} {sp dp : Nat} (ha : AllowsV2 fl)
    (hs : s.length = addrLen six) (hd : d.length = addrLen six) (hts : env.toText s = some ts) (htd : env.toText d = some td)
    (hsp : 1 ≤ sp ∧ sp ≤ 65535) (hdp : 1 ≤ dp ∧ dp ≤ 65535) (hl : 2 * addrLen six + 4 + tlv.length < 65536) :
    Reads env fl (headV2 proxy six s d sp dp tlv) ⟨[], !proxy, some ts, some td, sp, dp, netOf six, 0⟩ (fun _ => False) := by
  have front2 : ∀ q, one env fl (frontV2 proxy (if six then 33 else 17) (2 * addrLen six + 4 + tlv.length) ++ q) =
      runList env [.v2addr, .v2tlv] ⟨q, !proxy, none, none, 0, 0, netOf six, 2 * addrLen six + 4 + tlv.length⟩ := by
    intro q
    rw [back ha hl (famNet_six six)]
    have e : headerEnd ⟨q, !proxy, none, none, 0, 0, netOf six, 2 * addrLen six + 4 + tlv.length⟩ =
        .next ⟨q, !proxy, none, none, 0, 0, netOf six, 2 * addrLen six + 4 + tlv.length⟩ := by
      cases six
      · exact if_neg (by simp [addrLen]; try omega)
      · exact if_neg (by simp [addrLen]; try omega)
    rw [e]
  have hst : ∀ h : H, h.net = netOf six → stV2Addr env h = v2Addr env (addrLen six) h := by
    intro h hn
    unfold stV2Addr
    rw [hn]
    cases six <;> rfl
  have fl16 : (frontV2 proxy (if six then 33 else 17) (2 * addrLen six + 4 + tlv.length)).length = 16 := rfl
  have addrs : ∀ q, runList env [.v2addr, .v2tlv] ⟨(s ++ d ++ net16 sp ++ net16 dp) ++ q, !proxy, none, none, 0, 0, netOf six, 2 * addrLen six + 4 + tlv.length⟩ =
      runList env [.v2tlv] ⟨q, !proxy, some ts, some td, sp, dp, netOf six, tlv.length⟩ := by
    intro q
    rw [runList, exec, hst _ rfl, v2Addr_whole hs hd hts htd hsp hdp rfl]
    dsimp only
    rw [Nat.add_sub_cancel_left]
  refine ⟨?_, ?_, ?_, fun p _ _ h => h.elim⟩
  · rw [headV2, front2, addrs, runList, exec, stV2Tlv]
    by_cases h0 : tlv = []
    · subst h0; rfl
    · have : tlv.length ≠ 0 := fun e => h0 (List.length_eq_zero_iff.1 e)
      rw [if_neg this, if_neg (by simp)]
      dsimp only
      rw [runList, consume, if_neg (by simp), List.drop_length]
  · intro he
    have := he.2.2.1
    have e : byteAt (headV2 proxy six s d sp dp tlv) 13 = if six then 33 else 17 := by cases six <;> rfl
    rw [e] at this
    cases six <;> simp at this
  · intro p hp hlt _
    by_cases h16 : p.length < 16
    · by_cases h12 : p.length < 12
      · exact ⟨.version, ext start p, by rw [one, runVersion, if_pos (by simpa [ext, start] using h12)]⟩
      · have hq : p <+: [13, 10, 13, 10, 0, 13, 10, 81, 85, 73, 84, 10] ++ ([if proxy then 33 else 32, if six then 33 else 17] ++ net16 (2 * addrLen six + 4 + tlv.length) ++ ((s ++ d ++ net16 sp ++ net16 dp) ++ tlv)) := by
          simpa [headV2, frontV2] using hp
        rcases prefix_cases hq with ⟨_, h⟩ | ⟨y, rfl, hy⟩
        · simp at h; omega
        · refine ⟨.rest stagesV2, ext start ([13, 10, 13, 10, 0, 13, 10, 81, 85, 73, 84, 10] ++ y), ?_⟩
          rw [one_eq, runVersion, if_neg (by simp), if_neg (by simp [idV1, List.isPrefixOf]), if_pos (by rfl),
            if_neg (by rintro ⟨h1, h2⟩; exact h2 (ha h1)), stagesV2, runList, exec, stV2Header, if_pos (by dsimp only; omega)]
          rfl
    · unfold headV2 at hp hlt
      rcases prefix_cases hp with ⟨_, h⟩ | ⟨q, rfl, hq⟩
      · rw [fl16] at h; omega
      rw [front2]
      rcases prefix_cases hq with ⟨h1, h2⟩ | ⟨q2, rfl, hq2⟩
      · rw [runList, exec, hst _ rfl, v2Addr_part]
        · exact ⟨_, _, rfl⟩
        · simp [net16, hs, hd] at h2 ⊢; omega
      · rw [addrs, runList, exec, stV2Tlv]
        have : q2.length < tlv.length := by simp at hlt; omega
        rw [if_neg (by dsimp only; omega), if_pos this]
        exact ⟨_, _, rfl⟩

/-- The binary form without addresses. -/
theorem one_unspec {env : Env} {fl : Flags} (ha : AllowsV2 fl) {proxy : Bool} {len : Nat} (hl : len < 65536) (q : List UInt8) :
    one env fl (frontV2 proxy 0 len ++ q) = .done ⟨consume q len, !proxy, none, none, 0, 0, .any, len⟩ := by
  rw [back (n := .any) ha hl rfl]
  rfl

end Verif.ProxyProto
