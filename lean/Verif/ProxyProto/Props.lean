import Verif.ProxyProto.Sound
/-! C106, C107: the PROXY protocol header.

The headers themselves are `headV1`, `headV2` and `frontV2` (the bytes of the protocol document, written out in `Text.lean` and
`Binary.lean`), the texts `AddrText` and `PortText`.  `feed fresh ds` is the accepting layer after its events delivered the pieces
`ds`; the `buf` of a connected layer is what the application will read. -/
namespace Verif.ProxyProto
open Verif.Chr Verif.Num

/-! ## C106: a header is recognised however it arrives -/

/-- C106.  A binary header with addresses, arriving in any pieces, followed by anything: the connection is made, both endpoints
are those of the header, and the application reads exactly what follows the header. -/
theorem binary_pieces {env : Env} {fl : Flags} {proxy six : Bool} {s d ts td tlv rest : List UInt8} {sp dp : Nat}
    {ds : List (List UInt8)} (ha : fl.v1 = true → fl.v2 = true) (hs : s.length = addrLen six) (hd : d.length = addrLen six)
    (hts : env.toText s = some ts) (htd : env.toText d = some td) (hsp : 1 ≤ sp ∧ sp ≤ 65535) (hdp : 1 ≤ dp ∧ dp ≤ 65535)
    (hl : 2 * addrLen six + 4 + tlv.length < 65536) (hds : ds.flatten = headV2 proxy six s d sp dp tlv ++ rest) :
    feed env fl fresh ds = .connected ⟨rest, !proxy, some ts, some td, sp, dp, if six then .v6 else .v4, 0⟩ := by
  have R := reads_v2 (env := env) (fl := fl) (proxy := proxy) ha hs hd hts htd hsp hdp hl
  exact R.feed (rest := rest) ds [] .version start (one_nil env fl) List.nil_prefix
    (by simp [headV2, frontV2]) (by simpa using hds) (fun _ _ _ h => h.2)

/-- C106.  As long as part of it is missing the layer waits, however it was cut. -/
theorem binary_waits {env : Env} {fl : Flags} {proxy six : Bool} {s d ts td tlv : List UInt8} {sp dp : Nat}
    {ds : List (List UInt8)} (ha : fl.v1 = true → fl.v2 = true) (hs : s.length = addrLen six) (hd : d.length = addrLen six)
    (hts : env.toText s = some ts) (htd : env.toText d = some td) (hsp : 1 ≤ sp ∧ sp ≤ 65535) (hdp : 1 ≤ dp ∧ dp ≤ 65535)
    (hl : 2 * addrLen six + 4 + tlv.length < 65536) (hds : ds.flatten <+: headV2 proxy six s d sp dp tlv)
    (hne : ds.flatten ≠ headV2 proxy six s d sp dp tlv) :
    ∃ p h, feed env fl fresh ds = .connecting p h := by
  have R := reads_v2 (env := env) (fl := fl) (proxy := proxy) ha hs hd hts htd hsp hdp hl
  refine R.partly ds [] .version start (one_nil env fl) (by simpa using hds) ?_ (fun _ _ _ h => h)
  have h1 := hds.length_le
  have h2 : ds.flatten.length ≠ (headV2 proxy six s d sp dp tlv).length := fun e => hne (hds.eq_of_length e)
  rw [List.nil_append]
  omega

/-- C106.  The text form for a connection that is not relayed, in any pieces. -/
theorem unknown_pieces {env : Env} {fl : Flags} {rest : List UInt8} {ds : List (List UInt8)} (ha : fl.v2 = true → fl.v1 = true)
    (hds : ds.flatten = [80, 82, 79, 88, 89, 32, 85, 78, 75, 78, 79, 87, 78, 13, 10] ++ rest) :
    feed env fl fresh ds = .connected ⟨rest, true, none, none, 0, 0, .any, 0⟩ := by
  have R := reads_unknown (env := env) (fl := fl) ha
  exact R.feed (rest := rest) ds [] .version start (one_nil env fl) List.nil_prefix (by simp) (by simpa using hds) (fun _ _ _ h => h.2)

/-- No piece ends at a length for which `lateV1` holds: behind five characters of an incomplete port, or behind forty of an
incomplete address. -/
def GoodCuts (s d ps pd : List UInt8) (ds : List (List UInt8)) : Prop :=
  ∀ k, k ≤ ds.length → ¬ lateV1 s d ps pd (ds.take k).flatten.length

theorem goodCuts_iff {s d ps pd : List UInt8} {ds : List (List UInt8)} {hd : List UInt8} {six : Bool} (h : hd = headV1 six s d ps pd) :
    CutOk (fun n => n < hd.length ∧ lateV1 s d ps pd n) [] ds ↔ GoodCuts s d ps pd ds := by
  have hl : ∀ n, lateV1 s d ps pd n → n < hd.length := by
    intro n hn
    subst h
    simp only [lateV1, headV1, List.length_append, List.length_cons, List.length_nil] at *
    omega
  constructor
  · intro hc k hk
    cases k with
    | zero =>
      intro h0
      simp only [lateV1, List.take_zero, List.flatten_nil, List.length_nil] at h0
      omega
    | succ k =>
      intro h0
      exact hc (k + 1) (by omega) hk ⟨hl _ h0, by simpa using h0⟩
  · intro hg k _ h2 h3
    exact hg k h2 (by simpa using h3.2)

/-- C106.  A text header in pieces none of which ends at a forbidden place.  Missing: the other pieces, for which it is refused
(`text_pieces_fails`). -/
theorem text_pieces_partial {env : Env} {fl : Flags} {six : Bool} {s d bs bd ps pd rest : List UInt8} {sp dp : Nat}
    {ds : List (List UInt8)} (ha : fl.v2 = true → fl.v1 = true) (hs : AddrText env s bs) (hd : AddrText env d bd)
    (hps : PortText ps sp) (hpd : PortText pd dp) (hds : ds.flatten = headV1 six s d ps pd ++ rest) (hc : GoodCuts s d ps pd ds) :
    feed env fl fresh ds = .connected ⟨rest, false, some s, some d, sp, dp, if six then .v6 else .v4, 0⟩ := by
  have R := reads_v1 (env := env) (fl := fl) (six := six) ha hs hd hps hpd
  exact R.feed (rest := rest) ds [] .version start (one_nil env fl) List.nil_prefix
    (by simp [headV1]) (by simpa using hds) ((goodCuts_iff rfl).2 hc)

/-- C106.  In one piece it is always recognised. -/
theorem text_whole {env : Env} {fl : Flags} {six : Bool} {s d bs bd ps pd rest : List UInt8} {sp dp : Nat}
    (ha : fl.v2 = true → fl.v1 = true) (hs : AddrText env s bs) (hd : AddrText env d bd) (hps : PortText ps sp) (hpd : PortText pd dp) :
    feed env fl fresh [headV1 six s d ps pd ++ rest] = .connected ⟨rest, false, some s, some d, sp, dp, if six then .v6 else .v4, 0⟩ := by
  have R := reads_v1 (env := env) (fl := fl) (six := six) ha hs hd hps hpd
  refine R.feed (rest := rest) _ [] .version start (one_nil env fl) List.nil_prefix (by simp [headV1]) (by simp) ?_
  intro k h1 h2 h3
  have : k = 1 := by simp at h2; omega
  subst this
  simp only [List.take_succ_cons, List.take_zero, List.flatten_cons, List.flatten_nil, List.nil_append, List.append_nil, List.length_append] at h3
  omega

/-- A valid text header of which some piece ends at a forbidden place is refused, whatever it contains: a five digit source port
without the blank behind it, a destination port of four or five digits without its line end, is enough. -/
theorem text_pieces_fails {env : Env} {fl : Flags} {six : Bool} {s d bs bd ps pd rest : List UInt8} {sp dp : Nat}
    {ds : List (List UInt8)} (ha : fl.v2 = true → fl.v1 = true) (hs : AddrText env s bs) (hd : AddrText env d bd)
    (hps : PortText ps sp) (hpd : PortText pd dp) (hds : ds.flatten = headV1 six s d ps pd ++ rest) (hc : ¬ GoodCuts s d ps pd ds) :
    ∃ e, feed env fl fresh ds = .failed e := by
  have R := reads_v1 (env := env) (fl := fl) (six := six) ha hs hd hps hpd
  exact R.fails (rest := rest) ds [] .version start (one_nil env fl) List.nil_prefix
    (by simp [headV1]) (by rw [List.nil_append, hds]; exact List.prefix_refl _) (fun h => hc ((goodCuts_iff rfl).1 h))

theorem late_sport {s d ps pd : List UInt8} (h : ps.length = 5) : lateV1 s d ps pd (13 + s.length + d.length + ps.length) := by
  unfold lateV1; omega

theorem late_dport {s d ps pd : List UInt8} (h : pd.length = 4 ∨ pd.length = 5) :
    lateV1 s d ps pd (14 + s.length + d.length + ps.length + pd.length + 1) := by
  unfold lateV1; omega

/-- C106.  A binary header without addresses that arrives whole with the first piece that has its first sixteen bytes.  Missing:
the pieces of `unspec_pieces_fails`. -/
theorem unspec_pieces_partial {env : Env} {fl : Flags} {proxy : Bool} {tlv rest d : List UInt8} {ds : List (List UInt8)}
    (ha : fl.v1 = true → fl.v2 = true) (hl : tlv.length < 65536) (hd : (frontV2 proxy 0 tlv.length ++ tlv) <+: d)
    (hds : d ++ ds.flatten = frontV2 proxy 0 tlv.length ++ tlv ++ rest) :
    feed env fl fresh (d :: ds) = .connected ⟨rest, !proxy, none, none, 0, 0, .any, tlv.length⟩ := by
  obtain ⟨y, rfl⟩ := hd
  have h0 := feed_cons (d := frontV2 proxy 0 tlv.length ++ tlv ++ y) (ds := ds) (one_nil env fl)
  have e : fresh = .connecting .version start := rfl
  rw [e, h0, List.nil_append, List.append_assoc, one_unspec ha hl, conn, feed_connected, ext]
  dsimp only
  rw [consume, if_neg (by simp), List.drop_left]
  rw [List.append_assoc, List.append_assoc, List.append_assoc] at hds
  rw [List.append_cancel_left (List.append_cancel_left hds)]

/-- A binary header without addresses but with extensions that arrives in two pieces, cut behind the first sixteen bytes: the
application reads the extensions as if they were its data. -/
theorem unspec_pieces_fails {env : Env} {fl : Flags} {proxy : Bool} {x y rest : List UInt8} (ha : fl.v1 = true → fl.v2 = true)
    (hl : (x ++ y).length < 65536) (hy : y ≠ []) :
    feed env fl fresh [frontV2 proxy 0 (x ++ y).length ++ x, y ++ rest] =
      .connected ⟨(x ++ y) ++ rest, !proxy, none, none, 0, 0, .any, (x ++ y).length⟩ := by
  have h0 := feed_cons (d := frontV2 proxy 0 (x ++ y).length ++ x) (ds := [y ++ rest]) (one_nil env fl)
  have e : fresh = .connecting .version start := rfl
  have hy : y.length ≠ 0 := fun e => hy (List.length_eq_zero_iff.1 e)
  rw [e, h0, List.nil_append, one_unspec ha hl, conn, feed_connected, ext]
  dsimp only
  rw [consume, if_pos (by simp; omega)]
  simp

/-! ## C107: what is accepted was a header, and nothing else is taken from the application -/

/-- The stream starts like a binary header without addresses but with something behind its sixteen bytes. -/
def UnspecData (b : List UInt8) : Prop := [13, 10, 13, 10, 0, 13, 10, 81, 85, 73, 84, 10] <+: b ∧ b[13]? = some 0 ∧
  ((b.drop 14).take 2) ≠ [0, 0]

theorem early_unspec {c y : List UInt8} (h : Early c) : UnspecData (c ++ y) := by
  obtain ⟨h1, h2, h3, h4⟩ := h
  have hp := List.isPrefixOf_iff_prefix.1 h1
  refine ⟨hp.trans (List.prefix_append _ _), ?_, ?_⟩
  · rw [List.getElem?_append_left (by omega), List.getElem?_eq_getElem (by omega)]
    unfold byteAt at h3
    rw [List.getD_eq_getElem?_getD, List.getElem?_eq_getElem (by omega)] at h3
    exact congrArg some (UInt8.toNat_inj.1 h3)
  · intro he
    rw [List.drop_append_of_le_length (by omega), List.take_append_of_le_length (by rw [List.length_drop]; omega), take2 (by omega)] at he
    have hz := be16_net (a := []) (b := []) (i := 0) (be16_lt c 14) rfl
    rw [List.nil_append, List.append_nil, he] at hz
    have : be16 [0, 0] 0 = 0 := rfl
    omega

/-- C107.  However the stream was cut: if the connection was made, the stream starts with a header of the protocol, of a
version the flags allow, the layer reports what that header says, and the application reads exactly what follows it.  Missing:
binary headers without addresses but with extensions (`unspec_pieces_fails`).  The fields of a text header are read leniently
(`Says.text`, `text_port_fails`, `text_family_fails`). -/
theorem accepted_partial {env : Env} {fl : Flags} {ds : List (List UInt8)} {h : H} (hu : ¬ UnspecData ds.flatten)
    (hf : feed env fl fresh ds = .connected h) :
    ∃ hd, ds.flatten = hd ++ h.buf ∧ Says env hd h ∧ (hd.head? = some 80 → fl.v2 = true → fl.v1 = true) ∧
      (hd.head? = some 13 → fl.v1 = true → fl.v2 = true) := by
  obtain ⟨c, y, g, h1, h2, h3⟩ := feed_done (one_nil env fl) hf
  rw [List.nil_append] at h1
  have he : ¬ Early c := fun h => hu (h1 ▸ early_unspec h)
  obtain ⟨hd, h4, h5, h6, h7⟩ := one_inv h2 he
  subst h3
  refine ⟨hd, by rw [h1, h4]; simp [ext], ?_, h6, h7⟩
  cases h5 with
  | unknown => exact .unknown
  | text a b c d e => exact .text a b c d e
  | binary a b c d e f g => exact .binary a b c d e f g
  | unspec a => exact .unspec a

/-- C107.  Two ways of cutting the same stream that both lead to a connection lead to the same one.  Missing: as above. -/
theorem pieces_agree_partial {env : Env} {fl : Flags} {ds es : List (List UInt8)} {h g : H} (hu : ¬ UnspecData ds.flatten)
    (he : ds.flatten = es.flatten) (hf : feed env fl fresh ds = .connected h) (hg : feed env fl fresh es = .connected g) : h = g := by
  have key : ∀ {ds : List (List UInt8)} {h : H}, ¬ UnspecData ds.flatten → feed env fl fresh ds = .connected h →
      one env fl ds.flatten = .done h := by
    intro ds h hu hf
    obtain ⟨c, y, g, h1, h2, h3⟩ := feed_done (one_nil env fl) hf
    rw [List.nil_append] at h1
    have he : ¬ Early c := fun h => hu (h1 ▸ early_unspec h)
    rw [h1, one_done_ext y he h2, h3]
  have h1 := key hu hf
  have h2 := key (he ▸ hu) hg
  rw [he, h2] at h1
  injection h1 with h1
  exact h1.symm

/-- What the application is given by a run of reads, each of a size and with what the layer below would answer; the rest of the
buffer; what the layer below was really asked for and gave. -/
def reads : List UInt8 → List (Nat × Lower) → List UInt8 × List UInt8 × List UInt8
  | buf, [] => ([], buf, [])
  | buf, (size, lower) :: rs =>
    let took := match lower with
      | .data d => if buf.length < size then d else []
      | _ => []
    match readCb buf size lower with
    | (.data d, b) => let r := reads b rs; (d ++ r.1, r.2.1, took ++ r.2.2)
    | (_, b) => let r := reads b rs; (r.1, r.2.1, took ++ r.2.2)

/-- C107.  Reads of any sizes give the application first what was buffered behind the header, then what the layer below
delivers, in order and without loss, as long as the layer below reports no error.  (With an error: `read_error_fails`.) -/
theorem reads_partial : ∀ (rs : List (Nat × Lower)) (buf : List UInt8), (∀ r ∈ rs, 0 < r.1 ∧ r.2 ≠ .critical) →
    (reads buf rs).1 ++ (reads buf rs).2.1 = buf ++ (reads buf rs).2.2
  | [], buf, _ => by simp [reads]
  | (size, lower) :: rs, buf, h => by
    obtain ⟨h1, h2⟩ := h _ List.mem_cons_self
    have ih := fun b => reads_partial rs b (fun r hr => h r (List.mem_cons_of_mem _ hr))
    dsimp only at h1 h2
    have hnil : (reads [] rs).1 ++ (reads [] rs).2.1 = (reads [] rs).2.2 := by simpa using ih []
    by_cases hb : buf = []
    · subst hb
      cases lower with
      | critical => exact absurd rfl h2
      | again => simpa [reads, readCb] using hnil
      | data d => simp [reads, readCb, h1, hnil]
    · have hbl : 0 < buf.length := List.length_pos_iff.2 hb
      by_cases hs : size ≤ buf.length
      · have e : readCb buf size lower = (.data (buf.take size), buf.drop size) := by
          unfold readCb
          rw [if_neg hb, Nat.min_eq_right hs, if_neg (by omega), if_pos (by omega)]
        have ih := ih (buf.drop size)
        cases lower <;> simp only [reads, e, if_neg (show ¬ buf.length < size by omega), List.nil_append, List.append_assoc, ih] <;>
          rw [← List.append_assoc, List.take_append_drop]
      · have hm : min buf.length size = buf.length := Nat.min_eq_left (by omega)
        have hc : ¬ (size - buf.length = 0) := by omega
        cases lower with
        | critical => exact absurd rfl h2
        | again =>
          have e : readCb buf size .again = (.data buf, []) := by
            unfold readCb
            rw [if_neg hb, hm, if_neg (by omega), if_neg hc]
            simp
          simp only [reads, e, List.nil_append, List.append_assoc, hnil]
        | data d =>
          have e : readCb buf size (.data d) = (.data (buf ++ d), []) := by
            unfold readCb
            rw [if_neg hb, hm, if_neg (by omega), if_neg hc]
            simp
          simp only [reads, e, if_pos (show buf.length < size by omega), List.append_assoc, hnil]

/-! ## C106: the sending side -/

/-- What the address functions of the system must guarantee: 4 or 16 bytes, each with a text, from a text without blank or NUL
of at most 63 characters. -/
structure EnvOk (env : Env) : Prop where
  bytes : ∀ t b, env.toBin t = some b → b.length = 4 ∨ b.length = 16
  back : ∀ t b, env.toBin t = some b → ∃ u, env.toText b = some u ∧ env.toBin u = some b
  text : ∀ t b, env.toBin t = some b → (32 : UInt8) ∉ t ∧ (0 : UInt8) ∉ t ∧ 1 ≤ t.length ∧ t.length ≤ 63

/-- C106.  Which endpoints can be set: none, or two addresses of the same family and two ports that are not 0; and what is then
set.  In every other case nothing changes. -/
theorem endpoints_correct {env : Env} (henv : EnvOk env) (w : W) (s d : List UInt8) (sp dp : Nat) :
    (s = [] → d = [] → (setEndpoints env w s d sp dp).1 = true ∧ (setEndpoints env w s d sp dp).2.1 = freshW) ∧
    (s ≠ [] ∨ d ≠ [] →
      ((setEndpoints env w s d sp dp).1 = true ↔
        s ≠ [] ∧ d ≠ [] ∧ sp ≠ 0 ∧ dp ≠ 0 ∧ ∃ bs bd, env.toBin s = some bs ∧ env.toBin d = some bd ∧ bs.length = bd.length) ∧
      ((setEndpoints env w s d sp dp).1 = true → ∃ bs, env.toBin s = some bs ∧
        (setEndpoints env w s d sp dp).2.1 = ⟨false, s, d, sp, dp, if bs.length = 16 then .v6 else .v4⟩)) ∧
    ((setEndpoints env w s d sp dp).1 = false → (setEndpoints env w s d sp dp).2.1 = w) := by
  unfold setEndpoints
  by_cases h1 : (s = [] ∧ d ≠ []) ∨ (s ≠ [] ∧ d = [])
  · rw [if_pos h1]
    refine ⟨fun a b => ?_, fun _ => ⟨⟨fun h => (by cases h), fun h => ?_⟩, fun h => (by cases h)⟩, fun _ => rfl⟩
    · rcases h1 with h | h
      · exact absurd b h.2
      · exact absurd a h.1
    · rcases h1 with h' | h'
      · exact absurd h'.1 h.1
      · exact absurd h'.2 h.2.1
  rw [if_neg h1]
  by_cases h2 : s = []
  · rw [if_pos h2]
    have hd : d = [] := Classical.byContradiction fun hd => h1 (.inl ⟨h2, hd⟩)
    exact ⟨fun _ _ => ⟨rfl, rfl⟩, fun h => h.elim (fun h => absurd h2 h) (fun h => absurd hd h), fun h => (by cases h)⟩
  rw [if_neg h2]
  have hd : d ≠ [] := fun hd => h1 (.inr ⟨h2, hd⟩)
  refine ⟨fun h => absurd h h2, ?_⟩
  by_cases h3 : sp = 0 ∨ dp = 0
  · rw [if_pos h3]
    exact ⟨fun _ => ⟨⟨fun h => (by cases h), fun h => h3.elim (fun h3 => absurd h3 h.2.2.1) (fun h3 => absurd h3 h.2.2.2.1)⟩,
      fun h => (by cases h)⟩, fun _ => rfl⟩
  rw [if_neg h3]
  cases hs : env.toBin s with
  | none => exact ⟨fun _ => ⟨⟨fun h => (by cases h), fun ⟨_, _, _, _, bs, bd, e, _⟩ => (by cases e)⟩, fun h => (by cases h)⟩, fun _ => rfl⟩
  | some bs =>
    dsimp only
    cases hdd : env.toBin d with
    | none => exact ⟨fun _ => ⟨⟨fun h => (by cases h), fun ⟨_, _, _, _, _, bd, _, e, _⟩ => (by cases e)⟩, fun h => (by cases h)⟩, fun _ => rfl⟩
    | some bd =>
      dsimp only
      have l1 := henv.bytes _ _ hs
      have l2 := henv.bytes _ _ hdd
      by_cases h4 : (bs.length = 4 ∧ bd.length ≠ 4) ∨ (bs.length ≠ 4 ∧ bd.length ≠ 16)
      · rw [if_pos h4]
        refine ⟨fun _ => ⟨⟨fun h => (by cases h), fun ⟨_, _, _, _, bs', bd', e1, e2, e3⟩ => ?_⟩, fun h => (by cases h)⟩, fun _ => rfl⟩
        injection e1 with e1; injection e2 with e2; subst e1; subst e2
        omega
      · rw [if_neg h4]
        refine ⟨fun _ => ⟨⟨fun _ => ⟨h2, hd, fun e => h3 (.inl e), fun e => h3 (.inr e), bs, bd, rfl, rfl, by omega⟩, fun _ => rfl⟩,
          fun _ => ⟨bs, rfl, ?_⟩⟩, fun h => (by cases h)⟩
        rcases l1 with l1 | l1
        · simp [l1]
        · simp [l1]

/-- C106.  What one side sends after setting its endpoints, in the binary form, the other side reads back: the same addresses (in
the system's own spelling), the same ports, and then the data.  In any pieces. -/
theorem roundtrip_binary {env : Env} (henv : EnvOk env) {fl fl' : Flags} {w : W} {s d rest : List UInt8} {sp dp : Nat}
    {ds : List (List UInt8)} (hset : (setEndpoints env w s d sp dp).1 = true) (hs0 : s ≠ []) (hp : sp ≤ 65535 ∧ dp ≤ 65535)
    (hv : fl.v2 = true ∨ fl.v1 = false) (ha : fl'.v1 = true → fl'.v2 = true)
    (hds : ds.flatten = build env fl (setEndpoints env w s d sp dp).2.1 ++ rest) :
    ∃ bs bd ts td, env.toBin s = some bs ∧ env.toBin d = some bd ∧ env.toBin ts = some bs ∧ env.toBin td = some bd ∧
      feed env fl' fresh ds = .connected ⟨rest, false, some ts, some td, sp, dp, if bs.length = 16 then .v6 else .v4, 0⟩ := by
  obtain ⟨h1, h2⟩ := (endpoints_correct henv w s d sp dp).2.1 (.inl hs0)
  obtain ⟨_, h3, h4, h5, bs, bd, h6, h7, h8⟩ := h1.1 hset
  obtain ⟨bs', h9, h10⟩ := h2 hset
  rw [h6] at h9
  injection h9 with h9
  subst h9
  obtain ⟨ts, t1, t2⟩ := henv.back _ _ h6
  obtain ⟨td, t3, t4⟩ := henv.back _ _ h7
  refine ⟨bs, bd, ts, td, h6, h7, t2, t4, ?_⟩
  rw [h10, build, if_pos (by rcases hv with hv | hv <;> simp [hv])] at hds
  have l1 := henv.bytes _ _ h6
  have e : buildV2 env ⟨false, s, d, sp, dp, if bs.length = 16 then .v6 else .v4⟩ = headV2 true (decide (bs.length = 16)) bs bd sp dp [] := by
    unfold buildV2 headV2 frontV2 addrLen
    rw [h6, h7]
    rcases l1 with l1 | l1
    · simp [l1, idV2, put16, net16]
    · simp [l1, idV2, put16, net16]
  rw [e] at hds
  have hl : bs.length = addrLen (decide (bs.length = 16)) := by
    rcases l1 with l1 | l1 <;> simp [l1, addrLen]
  have := binary_pieces (env := env) (fl := fl') ha hl (h8 ▸ hl) t1 t3 (by omega) (by omega)
    (by simp only [List.length_nil]; omega) hds
  rw [this]
  simp

/-- C106.  The same in the text form, which keeps the spelling of the addresses.  Missing: the pieces of `text_pieces_fails`. -/
theorem roundtrip_text_partial {env : Env} (henv : EnvOk env) {fl fl' : Flags} {w : W} {s d rest : List UInt8} {sp dp : Nat}
    {ds : List (List UInt8)} (hset : (setEndpoints env w s d sp dp).1 = true) (hs0 : s ≠ []) (hp : sp ≤ 65535 ∧ dp ≤ 65535)
    (hv : fl.v1 = true ∧ fl.v2 = false) (ha : fl'.v2 = true → fl'.v1 = true)
    (hds : ds.flatten = build env fl (setEndpoints env w s d sp dp).2.1 ++ rest)
    (hc : GoodCuts s d (Decimal.decStr sp) (Decimal.decStr dp) ds) :
    ∃ bs, env.toBin s = some bs ∧
      feed env fl' fresh ds = .connected ⟨rest, false, some s, some d, sp, dp, if bs.length = 16 then .v6 else .v4, 0⟩ := by
  obtain ⟨h1, h2⟩ := (endpoints_correct henv w s d sp dp).2.1 (.inl hs0)
  obtain ⟨_, h3, h4, h5, bs, bd, h6, h7, h8⟩ := h1.1 hset
  obtain ⟨bs', h9, h10⟩ := h2 hset
  rw [h6] at h9
  injection h9 with h9
  subst h9
  refine ⟨bs, h6, ?_⟩
  rw [h10, build, if_neg (by simp [hv.1, hv.2])] at hds
  have l1 := henv.bytes _ _ h6
  have e : buildV1 ⟨false, s, d, sp, dp, if bs.length = 16 then .v6 else .v4⟩ =
      headV1 (decide (bs.length = 16)) s d (Decimal.decStr sp) (Decimal.decStr dp) := by
    unfold buildV1 headV1
    rcases l1 with l1 | l1
    · simp [l1, idV1]
    · simp [l1, idV1]
  rw [e] at hds
  obtain ⟨a1, a2, a3⟩ := henv.text _ _ h6
  obtain ⟨b1, b2, b3⟩ := henv.text _ _ h7
  have := text_pieces_partial (env := env) (fl := fl') ha ⟨h6, a1, a2, a3⟩ ⟨h7, b1, b2, b3⟩ (portText_dec (by omega)) (portText_dec (by omega)) hds hc
  rw [this]
  simp

/-- C106.  Without endpoints the other side learns that the connection is not relayed. -/
theorem roundtrip_local {env : Env} {fl fl' : Flags} {rest : List UInt8} {ds : List (List UInt8)}
    (ha : if fl.v2 = true ∨ fl.v1 = false then fl'.v1 = true → fl'.v2 = true else fl'.v2 = true → fl'.v1 = true)
    (hds : ds.flatten = build env fl freshW ++ rest) :
    feed env fl' fresh ds = .connected ⟨rest, true, none, none, 0, 0, .any, 0⟩ := by
  by_cases hv : fl.v2 = true ∨ fl.v1 = false
  · rw [if_pos hv] at ha
    rw [build, if_pos (by rcases hv with hv | hv <;> simp [hv])] at hds
    have e : buildV2 env freshW = frontV2 false 0 0 := rfl
    rw [e] at hds
    have one16 : ∀ q, one env fl' (frontV2 false 0 0 ++ q) = .done ⟨q, true, none, none, 0, 0, .any, 0⟩ := by
      intro q
      rw [one_unspec ha (by omega), consume, if_neg (by omega)]
      rfl
    have R : Reads env fl' (frontV2 false 0 0) start (fun _ => False) := by
      refine ⟨?_, ?_, ?_, fun p _ _ h => h.elim⟩
      · have := one16 []
        rwa [List.append_nil] at this
      · intro h
        have := h.2.2.2
        revert this
        decide
      · intro p hp hlt _
        have hlt : p.length < 16 := hlt
        by_cases h12 : p.length < 12
        · exact ⟨.version, ext start p, by rw [one, runVersion, if_pos (by simpa [ext, start] using h12)]⟩
        · have hq : p <+: [13, 10, 13, 10, 0, 13, 10, 81, 85, 73, 84, 10] ++ [32, 0, 0, 0] := hp
          rcases prefix_cases hq with ⟨_, h⟩ | ⟨y, rfl, hy⟩
          · simp at h; omega
          · refine ⟨.rest stagesV2, ext start ([13, 10, 13, 10, 0, 13, 10, 81, 85, 73, 84, 10] ++ y), ?_⟩
            rw [one_eq, runVersion, if_neg (by simp), if_neg (by simp [idV1, List.isPrefixOf]), if_pos (by rfl),
              if_neg (by rintro ⟨h1, h2⟩; exact h2 (ha h1)), stagesV2, runList, exec, stV2Header, if_pos (by dsimp only; omega)]
            rfl
    exact R.feed (rest := rest) ds [] .version start (one_nil env fl') List.nil_prefix (by simp [frontV2]) (by simpa using hds) (fun _ _ _ h => h.2)
  · rw [if_neg hv] at ha
    have hv1 : fl.v1 = true := by cases h : fl.v1 <;> simp_all
    have hv2 : fl.v2 = false := by cases h : fl.v2 <;> simp_all
    rw [build, if_neg (by simp [hv1, hv2])] at hds
    exact unknown_pieces ha hds

/-- The sending side after some events, each with the answers of the layer below. -/
def sends (msg : List UInt8) : Send → List (Bool × List Wr) → Send
  | s, [] => s
  | s, e :: es => sends msg (onEvent msg s e.1 e.2) es

/-- C106.  The sending side: after any events and any partial writes, what the layer below took is a beginning of the header,
the rest is kept, and the application is told that it is connected exactly when all of it was taken. -/
theorem header_sent {msg : List UInt8} (hm : msg ≠ []) (es : List (Bool × List Wr)) :
    let s := sends msg ⟨[], [], false, false⟩ es
    (s.connected = true ∧ s.sent = msg ∧ s.buf = []) ∨
      (s.connected = false ∧ s.sent <+: msg ∧ s.sent ≠ msg ∧ (s.sent ++ s.buf = msg ∨ s.sent = [] ∧ s.buf = [])) := by
  have loop : ∀ (rs : List Wr) (s : Send), s.connected = false → s.sent ++ s.buf = msg →
      (writeLoop s rs).connected = false ∧ (writeLoop s rs).sent ++ (writeLoop s rs).buf = msg := by
    intro rs
    induction rs with
    | nil => intro s h1 h2; exact ⟨h1, h2⟩
    | cons r rs ih =>
      intro s h1 h2
      cases r with
      | block => exact ⟨h1, h2⟩
      | critical => exact ⟨h1, h2⟩
      | took n =>
        rw [writeLoop]
        have h3 : (s.sent ++ s.buf.take n) ++ s.buf.drop n = msg := by rw [List.append_assoc, List.take_append_drop, h2]
        dsimp only
        split
        · exact ih _ h1 h3
        · exact ⟨h1, h3⟩
  have head : ∀ (rs : List Wr) (s : Send), s.connected = false → s.sent ++ s.buf = msg →
      ((writeHeader s rs).connected = true ∧ (writeHeader s rs).sent = msg ∧ (writeHeader s rs).buf = []) ∨
      ((writeHeader s rs).connected = false ∧ (writeHeader s rs).sent ++ (writeHeader s rs).buf = msg ∧ (writeHeader s rs).buf ≠ []) := by
    intro rs s h1 h2
    obtain ⟨h3, h4⟩ := loop rs s h1 h2
    unfold writeHeader
    dsimp only
    split
    · next h0 =>
      have h0 := List.length_eq_zero_iff.1 h0
      rw [h0, List.append_nil] at h4
      exact .inl ⟨rfl, h4, h0⟩
    · next h0 => exact .inr ⟨h3, h4, fun e => h0 (by rw [e]; rfl)⟩
  have step : ∀ (es : List (Bool × List Wr)) (s : Send),
      (s.connected = true ∧ s.sent = msg ∧ s.buf = []) ∨ (s.connected = false ∧ s.sent ++ s.buf = msg ∧ s.buf ≠ []) ∨
        (s.connected = false ∧ s.sent = [] ∧ s.buf = []) →
      ((sends msg s es).connected = true ∧ (sends msg s es).sent = msg ∧ (sends msg s es).buf = []) ∨
        ((sends msg s es).connected = false ∧ (sends msg s es).sent ++ (sends msg s es).buf = msg ∧ (sends msg s es).buf ≠ []) ∨
        ((sends msg s es).connected = false ∧ (sends msg s es).sent = [] ∧ (sends msg s es).buf = []) := by
    intro es
    induction es with
    | nil => intro s h; exact h
    | cons e es ih =>
      intro s h
      rw [sends]
      apply ih
      unfold onEvent
      rcases h with ⟨h1, h2, h3⟩ | ⟨h1, h2, h3⟩ | ⟨h1, h2, h3⟩
      · rw [if_pos h1]; exact .inl ⟨h1, h2, h3⟩
      · have hl : s.buf.length ≠ 0 := fun e => h3 (List.length_eq_zero_iff.1 e)
        rw [if_neg (by simp [h1]), if_neg (fun h => hl h.2)]
        split
        · rcases head e.2 s h1 h2 with h | h
          · exact .inl h
          · exact .inr (.inl h)
        · exact .inr (.inl ⟨h1, h2, h3⟩)
      · rw [if_neg (by simp [h1])]
        split
        · rcases head e.2 { s with buf := msg } h1 (by rw [h2]; rfl) with h | h
          · exact .inl h
          · exact .inr (.inl h)
        · rw [if_neg (by simp [h3])]
          exact .inr (.inr ⟨h1, h2, h3⟩)
  dsimp only
  rcases step es ⟨[], [], false, false⟩ (.inr (.inr ⟨rfl, rfl, rfl⟩)) with h | ⟨h1, h2, h3⟩ | ⟨h1, h2, h3⟩
  · exact .inl h
  · refine .inr ⟨h1, ⟨_, h2⟩, fun e => h3 ?_, .inl h2⟩
    rw [e] at h2
    simpa using h2
  · exact .inr ⟨h1, by rw [h2]; exact List.nil_prefix, fun e => hm (by rw [← e, h2]), .inr ⟨h2, h3⟩⟩

/-- The getters of the two handles after a reset that follows a relayed connection still say "relayed", with no address. -/
theorem reset_local_fails {h : H} (hl : h.isLocal = false) : (resetH h).isLocal = false ∧ (resetH h).src = none := ⟨hl, rfl⟩

/-- No path of `M_io_proxy_protocol_set_source_endpoints` gives back the lock of the connection it took. -/
theorem endpoints_lock_fails (env : Env) (w : W) (s d : List UInt8) (sp dp : Nat) : (setEndpoints env w s d sp dp).2.2 = 1 := by
  unfold setEndpoints
  repeat' split
  all_goals rfl

/-- A peer that sends its header and data and closes at once: when the close is seen by the same event, whatever was sent is
lost. -/
theorem close_fails (env : Env) (fl : Flags) (p : Pos) (h : H) (data : List UInt8) :
    onRead env fl (.connecting p h) data true = .failed .lower := rfl

/-- Data that is buffered behind the header is lost when the layer below reports an error to the read that asks for more. -/
theorem read_error_fails {buf : List UInt8} {size : Nat} (h0 : buf ≠ []) (h1 : buf.length < size) :
    readCb buf size .critical = (.critical, []) := by
  have : 0 < buf.length := List.length_pos_iff.2 h0
  unfold readCb
  rw [if_neg h0, Nat.min_eq_left (by omega), if_neg (by omega), if_neg (by omega), List.drop_length]

end Verif.ProxyProto
