import Verif.ProxyProto.Lemmas
/-! A header that arrives in pieces: the reader is determined by what it makes of each prefix. -/
namespace Verif.ProxyProto

/-- The handle before anything arrived. -/
def start : H := ⟨[], true, none, none, 0, 0, .any, 0⟩

/-- The reader given everything at once. -/
def one (env : Env) (fl : Flags) (b : List UInt8) : Out := runVersion env fl (ext start b)

/-- The layer after a run of the machine. -/
def conn : Out → Conn
  | .wait p h => .connecting p h
  | .done h => .connected h
  | .err e => .failed e

theorem version_wait_ext {env : Env} {fl : Flags} {h h' : H} {p : Pos} (x : List UInt8) (hw : runVersion env fl h = .wait p h') :
    resume env fl p (ext h' x) = runVersion env fl (ext h x) := by
  have e : (ext h x).buf = h.buf ++ x := rfl
  unfold runVersion at hw
  split at hw
  · injection hw with h1 h2; subst h1; subst h2; rfl
  next hl =>
  split at hw
  · next hp =>
    split at hw
    · cases hw
    next hf =>
    obtain ⟨ss', h1, h2⟩ := runList_wait_ext x hw
    subst h1
    rw [resume, ← h2, runVersion, e, if_neg (by rw [List.length_append]; omega), if_pos (prefix_append hp), if_neg hf]
  next hp =>
  split at hw
  · next hq =>
    split at hw
    · cases hw
    next hf =>
    obtain ⟨ss', h1, h2⟩ := runList_wait_ext x hw
    subst h1
    rw [resume, ← h2, runVersion, e, if_neg (by rw [List.length_append]; omega),
      prefix_append_not (by simp only [idV1, List.length]; omega) (Bool.eq_false_iff.2 hp), if_neg (by simp),
      if_pos (prefix_append hq), if_neg hf]
  · cases hw

/-- The start of a second version header without addresses, whose declared length has not arrived. -/
def Early (b : List UInt8) : Prop := idV2.isPrefixOf b = true ∧ Short b

theorem version_done_ext {env : Env} {fl : Flags} {h h' : H} (x : List UInt8) (hs : ¬ Early h.buf)
    (hw : runVersion env fl h = .done h') : runVersion env fl (ext h x) = .done (ext h' x) := by
  have e : (ext h x).buf = h.buf ++ x := rfl
  unfold runVersion at hw
  split at hw
  · cases hw
  next hl =>
  split at hw
  · next hp =>
    split at hw
    · cases hw
    next hf =>
    rw [runVersion, e, if_neg (by rw [List.length_append]; omega), if_pos (prefix_append hp), if_neg hf]
    exact runList_done_ext x (fun hm => absurd hm (by decide)) hw
  next hp =>
  split at hw
  · next hq =>
    split at hw
    · cases hw
    next hf =>
    rw [runVersion, e, if_neg (by rw [List.length_append]; omega),
      prefix_append_not (by simp only [idV1, List.length]; omega) (Bool.eq_false_iff.2 hp), if_neg (by simp),
      if_pos (prefix_append hq), if_neg hf]
    exact runList_done_ext x (fun _ => ⟨rfl, by decide, fun h => hs ⟨hq, h⟩⟩) hw
  · cases hw

theorem one_done_ext {env : Env} {fl : Flags} {b : List UInt8} {h : H} (x : List UInt8) (hs : ¬ Early b)
    (hw : one env fl b = .done h) : one env fl (b ++ x) = .done (ext h x) := by
  have := version_done_ext (h := ext start b) x (by simpa [ext, start] using hs) hw
  rwa [exec_wait_ext] at this

theorem feed_cons {env : Env} {fl : Flags} {b d : List UInt8} {ds : List (List UInt8)} {p : Pos} {h : H}
    (hw : one env fl b = .wait p h) :
    feed env fl (.connecting p h) (d :: ds) = feed env fl (conn (one env fl (b ++ d))) ds := by
  have := version_wait_ext d hw
  rw [exec_wait_ext] at this
  rw [feed, onRead]
  simp only [Bool.false_eq_true, if_false]
  have e : ({ h with buf := h.buf ++ d } : H) = ext h d := rfl
  rw [e, this]
  unfold one conn
  cases runVersion env fl (ext start (b ++ d)) <;> rfl

theorem feed_connected {env : Env} {fl : Flags} : ∀ (ds : List (List UInt8)) (h : H),
    feed env fl (.connected h) ds = .connected (ext h ds.flatten)
  | [], h => by rw [feed, List.flatten_nil, ext_nil]
  | d :: ds, h => by
    rw [feed, onRead]
    have e : ({ h with buf := h.buf ++ d } : H) = ext h d := rfl
    rw [e, feed_connected ds, exec_wait_ext, List.flatten_cons]

theorem feed_failed {env : Env} {fl : Flags} : ∀ (ds : List (List UInt8)) (e : Err), feed env fl (.failed e) ds = .failed e
  | [], e => rfl
  | d :: ds, e => by rw [feed, onRead]; exact feed_failed ds e

theorem one_nil (env : Env) (fl : Flags) : one env fl [] = .wait .version start := rfl

theorem feed_fresh {env : Env} {fl : Flags} : fresh = conn (one env fl []) := rfl

/-- A prefix of `hd ++ rest` is a proper prefix of `hd`, or `hd` followed by a prefix of `rest`. -/
theorem prefix_cases {p hd rest : List UInt8} (h : p <+: hd ++ rest) :
    (p <+: hd ∧ p.length < hd.length) ∨ ∃ y, p = hd ++ y ∧ y <+: rest := by
  by_cases hl : p.length < hd.length
  · exact .inl ⟨List.prefix_of_prefix_length_le h (List.prefix_append _ _) (by omega), hl⟩
  · right
    obtain ⟨y, hy⟩ := List.prefix_of_prefix_length_le (List.prefix_append hd rest) h (by omega)
    subst hy
    exact ⟨y, rfl, (List.prefix_append_right_inj hd).1 h⟩

/-- The pieces `ds`, after `b`, are cut nowhere the set `bad` of lengths forbids. -/
def CutOk (bad : Nat → Prop) (b : List UInt8) (ds : List (List UInt8)) : Prop :=
  ∀ k, 0 < k → k ≤ ds.length → ¬ bad (b ++ (ds.take k).flatten).length

theorem CutOk.head {bad : Nat → Prop} {b d : List UInt8} {ds : List (List UInt8)} (h : CutOk bad b (d :: ds)) : ¬ bad (b ++ d).length := by
  have := h 1 (by omega) (by simp)
  simpa using this

theorem CutOk.tail {bad : Nat → Prop} {b d : List UInt8} {ds : List (List UInt8)} (h : CutOk bad b (d :: ds)) : CutOk bad (b ++ d) ds := by
  intro k h1 h2
  have := h (k + 1) (by omega) (by simp; omega)
  simpa [List.append_assoc] using this

/-- What is known of a header: complete it is accepted; every other prefix that is not forbidden is waited on. -/
structure Reads (env : Env) (fl : Flags) (hd : List UInt8) (h0 : H) (bad : Nat → Prop) : Prop where
  whole : one env fl hd = .done h0
  early : ¬ Early hd
  waits : ∀ p, p <+: hd → p.length < hd.length → ¬ bad p.length → ∃ q h, one env fl p = .wait q h
  stops : ∀ p, p <+: hd → p.length < hd.length → bad p.length → ∃ e, one env fl p = .err e

theorem Reads.feed {env : Env} {fl : Flags} {hd : List UInt8} {h0 : H} {bad : Nat → Prop} (R : Reads env fl hd h0 bad)
    {rest : List UInt8} : ∀ (ds : List (List UInt8)) (b : List UInt8) (p : Pos) (h : H), one env fl b = .wait p h →
    b <+: hd → b.length < hd.length → b ++ ds.flatten = hd ++ rest → CutOk (fun n => n < hd.length ∧ bad n) b ds →
    Verif.ProxyProto.feed env fl (.connecting p h) ds = .connected (ext h0 rest)
  | [], b, p, h, hw, hp, hl, he, hc => by
    rw [List.flatten_nil, List.append_nil] at he
    rw [he, List.length_append] at hl
    omega
  | d :: ds, b, p, h, hw, hp, hl, he, hc => by
    rw [feed_cons hw]
    have hpre : b ++ d <+: hd ++ rest := ⟨ds.flatten, by rw [← he, List.flatten_cons, List.append_assoc]⟩
    have he' : (b ++ d) ++ ds.flatten = hd ++ rest := by rw [← he, List.flatten_cons, List.append_assoc]
    rcases prefix_cases hpre with ⟨h1, h2⟩ | ⟨y, h1, h2⟩
    · obtain ⟨q, h', hq⟩ := R.waits _ h1 h2 (fun hb => hc.head ⟨h2, hb⟩)
      rw [hq]
      exact Reads.feed R ds (b ++ d) q h' hq h1 h2 he' hc.tail
    · rw [h1, one_done_ext y R.early R.whole, conn, feed_connected, exec_wait_ext]
      rw [h1, List.append_assoc] at he'
      rw [List.append_cancel_left he']

theorem Reads.partly {env : Env} {fl : Flags} {hd : List UInt8} {h0 : H} {bad : Nat → Prop} (R : Reads env fl hd h0 bad) :
    ∀ (ds : List (List UInt8)) (b : List UInt8) (p : Pos) (h : H), one env fl b = .wait p h →
    b ++ ds.flatten <+: hd → (b ++ ds.flatten).length < hd.length → CutOk bad b ds →
    ∃ q g, Verif.ProxyProto.feed env fl (.connecting p h) ds = .connecting q g
  | [], b, p, h, hw, hp, hl, hc => ⟨p, h, rfl⟩
  | d :: ds, b, p, h, hw, hp, hl, hc => by
    rw [List.flatten_cons, ← List.append_assoc] at hp hl
    have h1 : b ++ d <+: hd := (List.prefix_append _ _).trans hp
    have h2 : (b ++ d).length < hd.length := by rw [List.length_append] at hl; omega
    obtain ⟨q, h', hq⟩ := R.waits _ h1 h2 hc.head
    obtain ⟨r, g, hg⟩ := Reads.partly R ds (b ++ d) q h' hq hp hl hc.tail
    have := feed_cons (d := d) (ds := ds) hw
    rw [hq] at this
    exact ⟨r, g, this.trans hg⟩

theorem Reads.fails {env : Env} {fl : Flags} {hd : List UInt8} {h0 : H} {bad : Nat → Prop} (R : Reads env fl hd h0 bad)
    {rest : List UInt8} : ∀ (ds : List (List UInt8)) (b : List UInt8) (p : Pos) (h : H), one env fl b = .wait p h →
    b <+: hd → b.length < hd.length → b ++ ds.flatten <+: hd ++ rest → ¬ CutOk (fun n => n < hd.length ∧ bad n) b ds →
    ∃ e, Verif.ProxyProto.feed env fl (.connecting p h) ds = .failed e
  | [], b, p, h, hw, hp, hl, he, hc => by
    exfalso; apply hc; intro k h1 h2; simp at h2; omega
  | d :: ds, b, p, h, hw, hp, hl, he, hc => by
    rw [feed_cons hw]
    rw [List.flatten_cons, ← List.append_assoc] at he
    rcases prefix_cases ((List.prefix_append _ _).trans he) with ⟨h1, h2⟩ | ⟨y, h1, h2⟩
    · by_cases hb : bad (b ++ d).length
      · obtain ⟨e, h3⟩ := R.stops _ h1 h2 hb
        rw [h3]
        exact ⟨e, feed_failed ds e⟩
      · obtain ⟨q, h', hq⟩ := R.waits _ h1 h2 hb
        rw [hq]
        refine Reads.fails R ds (b ++ d) q h' hq h1 h2 he (fun hk => hc ?_)
        intro k k1 k2
        cases k with
        | zero => omega
        | succ k =>
          cases k with
          | zero => intro hx; apply hb; simpa using hx.2
          | succ k =>
            have := hk (k + 1) (by omega) (by simp at k2; omega)
            simpa [List.append_assoc] using this
    · exfalso
      apply hc
      intro k k1 k2 hx
      have hx := hx.1
      cases k with
      | zero => omega
      | succ k =>
        rw [List.take_succ_cons, List.flatten_cons, ← List.append_assoc, List.length_append, h1, List.length_append] at hx
        omega

end Verif.ProxyProto
