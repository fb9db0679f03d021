import Verif.ProxyProto.Fields
/-! The text form of the header. -/
namespace Verif.ProxyProto
open Verif.Chr Verif.Num

/-- The text form: `PROXY TCP4 source destination port port` and the end of the line. -/
def headV1 (six : Bool) (s d ps pd : List UInt8) : List UInt8 :=
  [80, 82, 79, 88, 89, 32, 84, 67, 80, if six then 54 else 52, 32] ++ (s ++ [32] ++ (d ++ [32] ++ (ps ++ [32] ++ (pd ++ [13, 10]))))

/-- An address in text: the library can convert it, and it is at most 63 characters without blank. -/
structure AddrText (env : Env) (t b : List UInt8) : Prop where
  bin : env.toBin t = some b
  blank : (32 : UInt8) ∉ t
  nul : (0 : UInt8) ∉ t
  size : 1 ≤ t.length ∧ t.length ≤ 63

/-- Lengths at which the text form must not be cut: inside a long address, behind five characters of a port that is not
complete. -/
def lateV1 (s d ps pd : List UInt8) (n : Nat) : Prop :=
  (11 + 40 ≤ n ∧ n ≤ 11 + s.length) ∨
  (12 + s.length + 40 ≤ n ∧ n ≤ 12 + s.length + d.length) ∨
  (13 + s.length + d.length + 5 ≤ n ∧ n ≤ 13 + s.length + d.length + ps.length) ∨
  (14 + s.length + d.length + ps.length + 5 ≤ n ∧ n ≤ 14 + s.length + d.length + ps.length + pd.length + 1)

theorem AddrText.ne {env : Env} {t b : List UInt8} (h : AddrText env t b) : t ≠ [] := by
  intro e
  have := h.size
  simp [e] at this

section
variable {env : Env} {ss : List Stage} {h : H}

theorem src_whole {s b q : List UInt8} (hs : AddrText env s b) (hb : h.buf = s ++ [32] ++ q) :
    runList env (.src :: ss) h = runList env ss { h with src := some s, buf := q } := by
  rw [runList, exec, stSrc, hb, field_whole hs.ne hs.blank hs.size.2]
  dsimp only
  rw [cstr_eq hs.nul, hs.bin, if_neg (by simp)]
  rfl

theorem dst_whole {s b q : List UInt8} (hs : AddrText env s b) (hb : h.buf = s ++ [32] ++ q) :
    runList env (.dst :: ss) h = runList env ss { h with dst := some s, buf := q } := by
  rw [runList, exec, stDst, hb, field_whole hs.ne hs.blank hs.size.2]
  dsimp only
  rw [cstr_eq hs.nul, hs.bin, if_neg (by simp)]
  rfl

theorem sport_whole {t q : List UInt8} {n : Nat} (hs : PortText t n) (hb : h.buf = t ++ [32] ++ q) :
    runList env (.sport :: ss) h = runList env ss { h with sport := n, buf := q } := by
  have := hs.range
  have := hs.size
  rw [runList, exec, stSport, hb, field_whole hs.ne hs.no.2.1 (by omega)]
  dsimp only
  rw [toU32_port hs, if_neg (by omega), Nat.mod_eq_of_lt (by omega)]
  rfl

theorem dport_whole {t q : List UInt8} {n : Nat} (hs : PortText t n) (hb : h.buf = t ++ [13, 10] ++ q) :
    runList env (.dport :: ss) h = runList env ss { h with dport := n, buf := q } := by
  have := hs.range
  have := hs.size
  rw [runList, exec, stDport, hb, field_whole hs.ne hs.no.2.2 (by omega)]
  dsimp only
  rw [toU32_port hs, if_neg (by omega), Nat.mod_eq_of_lt (by omega)]
  rfl

/-- Waiting or an error, according to a limit. -/
def WaitOr (o : Out) (late : Prop) : Prop := (¬ late → ∃ p h, o = .wait p h) ∧ (late → ∃ e, o = .err e)

theorem src_part {s : List UInt8} (hs : (32 : UInt8) ∉ s) (hp : h.buf <+: s ++ [32]) (hl : h.buf.length < (s ++ [32]).length) :
    WaitOr (runList env (.src :: ss) h) (40 ≤ h.buf.length) := by
  have e : runList env (.src :: ss) h = if h.buf.length < 40 then .wait (.rest (.src :: ss)) h else .err .srcMissing := by
    rw [runList, exec, stSrc, field_part hs (by simp) hp hl]
    by_cases hc : h.buf.length < 40 <;> simp [hc]
  rw [e]
  exact ⟨fun hn => ⟨_, _, if_pos (by omega)⟩, fun hn => ⟨_, if_neg (by omega)⟩⟩

theorem dst_part {s : List UInt8} (hs : (32 : UInt8) ∉ s) (hp : h.buf <+: s ++ [32]) (hl : h.buf.length < (s ++ [32]).length) :
    WaitOr (runList env (.dst :: ss) h) (40 ≤ h.buf.length) := by
  have e : runList env (.dst :: ss) h = if h.buf.length < 40 then .wait (.rest (.dst :: ss)) h else .err .dstMissing := by
    rw [runList, exec, stDst, field_part hs (by simp) hp hl]
    by_cases hc : h.buf.length < 40 <;> simp [hc]
  rw [e]
  exact ⟨fun hn => ⟨_, _, if_pos (by omega)⟩, fun hn => ⟨_, if_neg (by omega)⟩⟩

theorem sport_part {s : List UInt8} (hs : (32 : UInt8) ∉ s) (hp : h.buf <+: s ++ [32]) (hl : h.buf.length < (s ++ [32]).length) :
    WaitOr (runList env (.sport :: ss) h) (5 ≤ h.buf.length) := by
  have e : runList env (.sport :: ss) h = if h.buf.length < 5 then .wait (.rest (.sport :: ss)) h else .err .sportMissing := by
    rw [runList, exec, stSport, field_part hs (by simp) hp hl]
    by_cases hc : h.buf.length < 5 <;> simp [hc]
  rw [e]
  exact ⟨fun hn => ⟨_, _, if_pos (by omega)⟩, fun hn => ⟨_, if_neg (by omega)⟩⟩

theorem dport_part {s : List UInt8} (hs : (13 : UInt8) ∉ s) (hp : h.buf <+: s ++ [13, 10]) (hl : h.buf.length < (s ++ [13, 10]).length) :
    WaitOr (runList env (.dport :: ss) h) (5 ≤ h.buf.length) := by
  have e : runList env (.dport :: ss) h = if h.buf.length < 5 then .wait (.rest (.dport :: ss)) h else .err .dportMissing := by
    rw [runList, exec, stDport, field_part hs (by simp) hp hl]
    by_cases hc : h.buf.length < 5 <;> simp [hc]
  rw [e]
  exact ⟨fun hn => ⟨_, _, if_pos (by omega)⟩, fun hn => ⟨_, if_neg (by omega)⟩⟩

end

theorem WaitOr.mono {o : Out} {a b : Prop} (h : WaitOr o a) (e : a ↔ b) : WaitOr o b :=
  ⟨fun hb => h.1 (fun ha => hb (e.1 ha)), fun hb => h.2 (e.2 hb)⟩

/-- The flags let the text form in. -/
def AllowsV1 (fl : Flags) : Prop := fl.v2 = true → fl.v1 = true

/-- The flags let the binary form in. -/
def AllowsV2 (fl : Flags) : Prop := fl.v1 = true → fl.v2 = true

def netOf (six : Bool) : Net := if six then .v6 else .v4

theorem one_eq {env : Env} {fl : Flags} {b : List UInt8} :
    one env fl b = runVersion env fl ⟨b, true, none, none, 0, 0, .any, 0⟩ := rfl

theorem front {env : Env} {fl : Flags} (ha : AllowsV1 fl) (six : Bool) (q : List UInt8) (hq : q ≠ []) :
    one env fl ([80, 82, 79, 88, 89, 32, 84, 67, 80, if six then 54 else 52, 32] ++ q) =
      if q.length < 4 then .wait (.rest [.proto, .src, .dst, .sport, .dport])
          (ext start ([84, 67, 80, if six then 54 else 52, 32] ++ q))
      else runList env [.src, .dst, .sport, .dport] ⟨q, false, none, none, 0, 0, netOf six, 0⟩ := by
  have hl : 1 ≤ q.length := by
    cases q with
    | nil => exact absurd rfl hq
    | cons => simp
  rw [one_eq, runVersion]
  rw [if_neg (by simp; omega), if_pos (by rfl), if_neg (by rintro ⟨h1, h2⟩; exact h2 (ha h1)), stagesV1, runList, exec, stHeader]
  dsimp only
  rw [if_neg (by simp)]
  have e1 : consumeUntil ([80, 82, 79, 88, 89, 32, 84, 67, 80, if six then 54 else 52, 32] ++ q) [32] =
      (6, [84, 67, 80, if six then 54 else 52, 32] ++ q) := by
    unfold consumeUntil
    have := find_first (c := 32) (ds := []) ([84, 67, 80, if six then 54 else 52, 32] ++ q) (t := [80, 82, 79, 88, 89]) (by decide)
    simp only [List.cons_append, List.nil_append] at this ⊢
    rw [this]
    rfl
  rw [e1, if_neg (by simp)]
  dsimp only
  rw [runList, exec, stProto]
  dsimp only
  have e2 : readUntil ([84, 67, 80, if six then 54 else 52, 32] ++ q) [32] 15 = ([84, 67, 80, if six then 54 else 52], [32] ++ q) := by
    unfold readUntil
    have := find_first (c := 32) (ds := []) q (t := [84, 67, 80, if six then 54 else 52]) (by cases six <;> decide)
    simp only [List.cons_append, List.nil_append] at this ⊢
    rw [this]
    rfl
  by_cases h4 : q.length < 4
  · rw [if_pos (by simp; omega), if_pos h4]
    rfl
  · rw [if_neg (by simp; omega), if_neg h4, if_neg (by simp [unknown, List.isPrefixOf]), e2, if_neg (by simp)]
    have e3 : protoNet [84, 67, 80, if six then 54 else 52] = some (netOf six) := by cases six <;> decide
    rw [e3]
    rfl

theorem reads_v1 {env : Env} {fl : Flags} {six : Bool} {s d bs bd ps pd : List UInt8} {sp dp : Nat} (ha : AllowsV1 fl)
    (hs : AddrText env s bs) (hd : AddrText env d bd) (hps : PortText ps sp) (hpd : PortText pd dp) :
    Reads env fl (headV1 six s d ps pd) ⟨[], false, some s, some d, sp, dp, netOf six, 0⟩ (lateV1 s d ps pd) := by
  have hs1 := hs.size
  have hd1 := hd.size
  have hp1 := hps.size
  have hq1 := hpd.size
  have key : ∀ p, p <+: headV1 six s d ps pd → p.length < (headV1 six s d ps pd).length →
      WaitOr (one env fl p) (lateV1 s d ps pd p.length) := by
    intro p hp hl
    by_cases h12 : p.length < 12
    · refine ⟨fun _ => ⟨.version, ext start p, ?_⟩, fun h => ?_⟩
      · rw [one, runVersion, if_pos (by simpa [ext, start] using h12)]
      · exfalso; unfold lateV1 at h; omega
    rcases prefix_cases hp with ⟨_, h⟩ | ⟨q, rfl, hq⟩
    · simp at h; omega
    have hq0 : q ≠ [] := by intro e; simp [e] at h12
    rw [front ha six q hq0]
    by_cases h4 : q.length < 4
    · rw [if_pos h4]
      refine ⟨fun _ => ⟨_, _, rfl⟩, fun h => ?_⟩
      exfalso
      simp only [lateV1, List.length_append, List.length_cons, List.length_nil] at h
      omega
    rw [if_neg h4]
    rcases prefix_cases hq with ⟨h1, h2⟩ | ⟨q2, rfl, hq2⟩
    · refine (src_part hs.blank h1 h2).mono ?_
      simp only [lateV1, List.length_append, List.length_cons, List.length_nil] at h2 ⊢
      omega
    rw [src_whole hs rfl]
    dsimp only
    rcases prefix_cases hq2 with ⟨h1, h2⟩ | ⟨q3, rfl, hq3⟩
    · refine (dst_part hd.blank h1 h2).mono ?_
      simp only [lateV1, List.length_append, List.length_cons, List.length_nil] at h2 ⊢
      omega
    rw [dst_whole hd rfl]
    dsimp only
    rcases prefix_cases hq3 with ⟨h1, h2⟩ | ⟨q4, rfl, hq4⟩
    · refine (sport_part hps.no.2.1 h1 h2).mono ?_
      simp only [lateV1, List.length_append, List.length_cons, List.length_nil] at h2 ⊢
      omega
    rw [sport_whole hps rfl]
    dsimp only
    have h2 : q4.length < (pd ++ [13, 10]).length := by
      simp only [headV1, List.length_append, List.length_cons, List.length_nil] at hl ⊢
      omega
    refine (dport_part hpd.no.2.2 hq4 h2).mono ?_
    simp only [lateV1, List.length_append, List.length_cons, List.length_nil] at h2 ⊢
    omega
  refine ⟨?_, ?_, fun p h1 h2 h3 => (key p h1 h2).1 h3, fun p h1 h2 h3 => (key p h1 h2).2 h3⟩
  · rw [headV1, front ha six _ (by simp), if_neg (by simp; omega), src_whole hs rfl, dst_whole hd rfl, sport_whole hps rfl,
      dport_whole (q := []) hpd (by simp)]
    rfl
  · intro he
    have := he.1
    simp [headV1, idV2, List.isPrefixOf] at this

theorem reads_unknown {env : Env} {fl : Flags} (ha : AllowsV1 fl) :
    Reads env fl [80, 82, 79, 88, 89, 32, 85, 78, 75, 78, 79, 87, 78, 13, 10] start (fun _ => False) := by
  have run : ∀ q, one env fl ([80, 82, 79, 88, 89, 32, 85, 78, 75, 78, 79, 87] ++ q) =
      if q.length < 3 then .wait (.rest [.proto, .src, .dst, .sport, .dport]) (ext start ([85, 78, 75, 78, 79, 87] ++ q))
      else runList env [.proto, .src, .dst, .sport, .dport] (ext start ([85, 78, 75, 78, 79, 87] ++ q)) := by
    intro q
    rw [one_eq, runVersion]
    rw [if_neg (by simp), if_pos (by rfl), if_neg (by rintro ⟨h1, h2⟩; exact h2 (ha h1)), stagesV1, runList, exec, stHeader]
    dsimp only
    rw [if_neg (by simp)]
    have e1 : consumeUntil ([80, 82, 79, 88, 89, 32, 85, 78, 75, 78, 79, 87] ++ q) [32] = (6, [85, 78, 75, 78, 79, 87] ++ q) := by
      unfold consumeUntil
      have := find_first (c := 32) (ds := []) ([85, 78, 75, 78, 79, 87] ++ q) (t := [80, 82, 79, 88, 89]) (by decide)
      simp only [List.cons_append, List.nil_append] at this ⊢
      rw [this]
      rfl
    rw [e1, if_neg (by simp)]
    dsimp only
    by_cases h3 : q.length < 3
    · rw [if_pos h3, runList, exec, stProto]
      dsimp only
      rw [if_pos (by simp; omega)]
      rfl
    · rw [if_neg h3]; rfl
  refine ⟨?_, ?_, ?_, fun p _ _ h => h.elim⟩
  · have := run [78, 13, 10]
    simp only [List.cons_append, List.nil_append] at this
    rw [this]
    rfl
  · intro he
    have := he.1
    simp [idV2, List.isPrefixOf] at this
  · intro p hp hl _
    by_cases h12 : p.length < 12
    · exact ⟨.version, ext start p, by rw [one, runVersion, if_pos (by simpa [ext, start] using h12)]⟩
    have e : ([80, 82, 79, 88, 89, 32, 85, 78, 75, 78, 79, 87, 78, 13, 10] : List UInt8) =
      [80, 82, 79, 88, 89, 32, 85, 78, 75, 78, 79, 87] ++ [78, 13, 10] := rfl
    rw [e] at hp
    rcases prefix_cases hp with ⟨_, h⟩ | ⟨q, rfl, hq⟩
    · simp at h; omega
    · rw [run q, if_pos (by simp at hl ⊢; omega)]
      exact ⟨_, _, rfl⟩

end Verif.ProxyProto
