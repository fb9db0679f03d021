import Verif.Http.WriterSteps
/- C87: what the writers put out is what the reader reads. -/
namespace Verif.Http.Frame
open Verif.Chr (isSpace toLower)
open Verif.Str (NoOuter join)

theorem size_map (hs : List Hdr) : size (hs.map Hdr.field) = (hs.map fun h => h.field.line.length).sum := by
  simp [size, Function.comp_def]

/-- What the reader makes of a message with a body, given in any pieces and with anything after it: it accepts the message,
leaves what follows, and tells of the first line, the fields and the body. -/
def ReadAs (uriOk : List UInt8 → Bool) (s : Start) (code : Nat) (hs : List Hdr) (body msg : List UInt8) : Prop :=
  ∀ (cb : Cb), (∀ e, cb e = none) → ∀ (extra : List UInt8) (ps : List (List UInt8)), ps ≠ [] → (∀ p ∈ ps, p ≠ []) → ps.flatten = msg ++ extra →
    (feed cb uriOk false init [] ps).1 = .success ∧ (feed cb uriOk false init [] ps).2.1 = extra ∧
      units (feed cb uriOk false init [] ps).2.2.2 = units (s.ev code :: headerEvs (hs.map Hdr.field) ++ if body = [] then [.headerDone .none] else [.headerDone .body, .body body, .bodyDone])

section
variable {us : List Hdr} {ct : Option Hdr} {cs body : List UInt8}

theorem readAs {uriOk : List UInt8 → Bool} {s : Start} {code : Nat} (hs : s.Good uriOk code) (hl : s.line.length ≤ 6144) {d dt : List UInt8} (h : Input us ct cs body)
    (hd : Digits 10 d body.length) (hok : Ok (expected us d ct cs dt)) (hz : size ((expected us d ct cs dt).map Hdr.field) ≤ 8192) :
    ReadAs uriOk s code (expected us d ct cs dt) body (head [] s ((expected us d ct cs dt).map Hdr.field) ++ body) := by
  intro cb hcb extra ps h1 h2 h3
  refine feed_sized hcb (ws := []) ⟨by simp, hs, hl, ?_, hz⟩ (expected_sized h hd hok) h1 h2 h3
  intro f hf
  obtain ⟨x, hx, rfl⟩ := List.mem_map.1 hf
  exact (hok.good x hx).field

theorem reason_bytes (n : Nat) : reasonText n ≠ [] ∧ ∀ c ∈ reasonText n, c ≠ 0 ∧ c ≠ 13 := by
  unfold reasonText
  split <;> decide

/-- **C87**, responses. -/
theorem response_read (h : Input us ct cs body) {data : Option (List UInt8)} {len : Nat} (hd : Data (lookup us cLength).isSome cs data len body) (now : Int)
    {code : Nat} (hc : code < 2 ^ 32) {reason : List UInt8} (hr : ∀ c ∈ reason, c ≠ 0 ∧ c ≠ 13) :
    ∃ c r d dt, Digits 10 c code ∧ (r ≠ [] ∧ (reason ≠ [] → r = reason)) ∧ Digits 10 d body.length ∧ DateOf now dt ∧
      writeResponse now code reason ((ct.map (·.text)).getD []) (us.map fun h => (h.name, h.text)) data len cs =
        .ok (head [] (.response .v11 c r) ((expected us d ct cs dt).map Hdr.field) ++ body) ∧
      ((Start.response .v11 c r).line.length ≤ 6144 → size ((expected us d ct cs dt).map Hdr.field) ≤ 8192 → ∀ uriOk,
        ReadAs uriOk (.response .v11 c r) code (expected us d ct cs dt) body (head [] (.response .v11 c r) ((expected us d ct cs dt).map Hdr.field) ++ body)) := by
  have hdig := decimal_digits body.length
  obtain ⟨dt, h1, h2, h3⟩ := int_eq h (set_stored h.good h.distinct []) hd now
  have hrb := reason_bytes code
  refine ⟨decimal code, if reason = [] then reasonText code else reason, decimal body.length, dt, decimal_digits code, ⟨?_, ?_⟩, hdig, h1, ?_, ?_⟩
  · split
    · exact hrb.1
    · assumption
  · intro hne; rw [if_neg hne]
  · rw [writeResponse, h3]
    simp [head, Start.line, versionText, sVersion, eol, crlf]
  · intro hl hz uriOk
    have hs : (Start.response .v11 (decimal code) (if reason = [] then reasonText code else reason)).Good uriOk code := by
      refine ⟨decimal_digits code, hc, ?_⟩
      split
      · exact hrb.2
      · exact hr
    exact readAs hs hl h hdig h2 hz

/-! ### Requests -/

theorem method_eq (m : Method) : methodText m = methodName m := by cases m <;> rfl

theorem target_eq (uri : List UInt8) : ∃ t, writeTarget uri = some (some t) ∧ Target uri t := by
  unfold writeTarget Target
  by_cases he : uri = []
  · refine ⟨[47], ?_, by rw [if_pos he]⟩
    simp only [he, if_true]
    rw [if_neg (by decide)]
  · simp only [he, if_false]
    by_cases hs : ∀ c ∈ uri, c ≠ 32 ∧ c < 128
    · refine ⟨uri, ?_, by rw [if_pos hs]⟩
      rw [if_neg]
      rintro (h | h)
      · exact (hs 32 h).1 rfl
      · obtain ⟨c, hc, h⟩ := List.any_eq_true.1 h
        have h1 := (hs c hc).2
        simp only [ge_iff_le, decide_eq_true_eq, UInt8.le_iff_toNat_le, UInt8.lt_iff_toNat_lt] at h h1
        omega
    · rw [if_pos]
      · simp only [if_neg hs]
        refine ⟨uri.flatMap (Textcodec.encByte .urlMin), ?_, Textcodec.encByte_means .urlMin uri, ?_⟩
        · rw [Textcodec.pctEncode, Textcodec.enc_eq]; rfl
        · intro c hc
          obtain ⟨b, _, hb⟩ := List.mem_flatMap.1 hc
          have := List.all_eq_true.1 (Textcodec.encByte_ok .urlMin b).1 c hb
          rcases (of_decide_eq_true this) with h | ⟨h, _⟩
          · exact h
          · exact absurd h (by decide)
      · apply Classical.byContradiction
        intro hn
        rw [not_or] at hn
        refine hs fun c hc => ⟨fun e => hn.1 (e ▸ hc), ?_⟩
        have : ¬ c ≥ 128 := fun hh => hn.2 (List.any_eq_true.2 ⟨c, hc, by simpa using hh⟩)
        exact UInt8.not_le.1 this

theorem target_bytes {uri t : List UInt8} (h : Target uri t) (hu : ∀ c ∈ uri, c ≠ 0 ∧ c ≠ 13) : t ≠ [] ∧ ∀ c ∈ t, c ≠ 0 ∧ c ≠ 13 ∧ c ≠ 32 := by
  unfold Target at h
  split at h
  · rw [h]; decide
  · next hne =>
    split at h
    · next hs =>
      rw [h]
      exact ⟨hne, fun c hc => ⟨(hu c hc).1, (hu c hc).2, (hs c hc).1⟩⟩
    · refine ⟨?_, fun c hc => ?_⟩
      · intro e
        rw [e] at h
        cases h.1
        exact hne rfl
      · have := (h.2 c hc).1
        rw [UInt8.le_iff_toNat_le] at this
        refine ⟨?_, ?_, ?_⟩ <;> intro e <;> rw [e] at this <;> exact absurd this (by decide)

/-- The value of the `Host` header: the host, and the port if it is not the usual one. -/
def hostText (host : List UInt8) (port : Nat) (p : List UInt8) : List UInt8 := if port = 0 ∨ port = 80 then host else host ++ [58] ++ p

/-- The `Host` header for the arguments. -/
def hostHdr (host : List UInt8) (port : Nat) (p : List UInt8) : Option Hdr := if host = [] then none else some (one cHost (hostText host port p))

/-- The arguments of a request: a host name, or a `Host` header among the headers; a program that is not named by the
headers too; an address without carriage returns. -/
structure Asked (us : List Hdr) (host : List UInt8) (agent : Option Hdr) (uri : List UInt8) : Prop where
  header : host = [] → (lookup us cHost).isSome = true
  hostOuter : NoOuter host
  hostByte : ∀ c ∈ host, c ≠ 0 ∧ c ≠ 13 ∧ c ≠ 44 ∧ c ≠ 59
  agent : ∀ a, agent = some a → a.name = cAgent ∧ a.Good ∧ lookup us cAgent = none
  uri : ∀ c ∈ uri, c ≠ 0 ∧ c ≠ 13

theorem good_host {host : List UInt8} (h1 : host ≠ []) (h2 : NoOuter host) (h3 : ∀ c ∈ host, c ≠ 0 ∧ c ≠ 13 ∧ c ≠ 44 ∧ c ≠ 59) {p : List UInt8} {port : Nat} (hp : Digits 10 p port) :
    (one cHost (hostText host port p)).Good := by
  unfold hostText
  split
  · exact good_one (by decide) (by decide) (by decide) h1 h2 (fun c hc => ⟨(h3 c hc).1, (h3 c hc).2.1, (h3 c hc).2.2.2⟩) fun _ hc => (h3 44 hc).2.2.1 rfl
  · refine good_one (by decide) (by decide) (by decide) (by simp) ⟨?_, ?_⟩ ?_ ?_
    · intro c t e
      cases host with
      | nil => exact absurd rfl h1
      | cons x xs =>
        simp only [List.cons_append, List.cons.injEq] at e
        rw [← e.1]; exact h2.1 x xs rfl
    · intro c t e
      have e2 := List.dropLast_concat_getLast hp.ne
      rw [← e2, ← List.append_assoc] at e
      have := (List.append_inj' e rfl).2
      simp only [List.cons.injEq, and_true] at this
      rw [← this]
      exact (digits_bytes hp _ (List.getLast_mem hp.ne)).1
    · intro c hc
      simp only [List.mem_append, List.mem_singleton] at hc
      rcases hc with (hc | hc) | hc
      · exact ⟨(h3 c hc).1, (h3 c hc).2.1, (h3 c hc).2.2.2⟩
      · rw [hc]; decide
      · have := digits_bytes hp c hc
        exact ⟨this.2.1, this.2.2.1, this.2.2.2.2⟩
    · intro _ hc
      simp only [List.mem_append, List.mem_singleton] at hc
      rcases hc with (hc | hc) | hc
      · exact (h3 44 hc).2.2.1 rfl
      · exact absurd hc (by decide)
      · exact (digits_bytes hp 44 hc).2.2.2.1 rfl

/-- The headers of a request are as good as those given. -/
theorem requested_input (h : Input us ct cs body) {hh ah : Option Hdr} (h1 : ∀ x, hh = some x → x.name = cHost ∧ x.Good) (h2 : ∀ x, ah = some x → x.name = cAgent ∧ x.Good ∧ lookup us cAgent = none) :
    Input (requested us hh ah) ct cs body ∧ (lookup (requested us hh ah) cLength).isSome = (lookup us cLength).isSome := by
  have hm : ∀ x ∈ requested us hh ah, x ∈ us ∨ hh = some x ∨ ah = some x := by
    intro x hx
    unfold requested at hx
    rcases List.mem_append.1 hx with hx | hx
    · cases hh with
      | none => exact .inl hx
      | some y =>
        rcases List.mem_append.1 hx with hx | hx
        · exact .inl (mem_without.1 hx).1
        · rw [List.mem_singleton.1 hx]; exact .inr (.inl rfl)
    · exact .inr (.inr (by simpa using hx))
  have hl : ∀ n, ¬ Alike cHost n → ¬ Alike cAgent n → lookup (requested us hh ah) n = lookup us n := by
    intro n e1 e2
    have ha : lookup ah.toList n = none := by
      rw [lookup_none]
      intro x hx hxa
      have := (h2 x (by simpa using hx)).1
      rw [this] at hxa
      exact e2 hxa
    have hw : ∀ l : List Hdr, lookup (without cHost l) n = lookup l n := by
      intro l
      induction l with
      | nil => rfl
      | cons x l ih =>
        unfold without lookup at ih ⊢
        by_cases hx : Alike x.name cHost
        · have hxn : ¬ Alike x.name n := fun hh => e1 (hx.symm.trans hh)
          simp only [List.filter_cons, hx, decide_true, Bool.not_true, Bool.false_eq_true, if_false, List.find?_cons, hxn, decide_false]
          exact ih
        · simp only [List.filter_cons, hx, decide_false, Bool.not_false, if_true, List.find?_cons]
          split
          · rfl
          · exact ih
    unfold requested
    have happ : ∀ l m : List Hdr, lookup m n = none → lookup (l ++ m) n = lookup l n := by
      intro l m hm
      unfold lookup at hm ⊢
      rw [List.find?_append, hm]; simp
    rw [happ _ _ ha]
    cases hh with
    | none => rfl
    | some y =>
      show lookup (without cHost us ++ [y]) n = _
      rw [happ _ _, hw]
      rw [lookup_none]
      intro x hx hxa
      rw [List.mem_singleton.1 hx, (h1 y rfl).1] at hxa
      exact e1 hxa
  have hbt : baseType (requested us hh ah) ct cs = baseType us ct cs := by
    unfold baseType
    rw [hl cType (by decide) (by decide)]
  refine ⟨⟨?_, ?_, ?_, ?_, h.small, h.typeName, by rw [hbt]; exact h.type, by rw [hbt]; exact h.multi, h.charset⟩, by rw [hl cLength (by decide) (by decide)]⟩
  · intro x hx
    rcases hm x hx with e | e | e
    · exact h.good x e
    · exact (h1 x e).2
    · exact (h2 x e).2.1
  · show Distinct _
    unfold requested
    have hd1 : Distinct (hosted us hh) := by
      cases hh with
      | none => exact h.distinct
      | some y =>
        refine distinct_snoc (List.Pairwise.filter _ h.distinct) ?_
        rw [(h1 y rfl).1]; exact lookup_without _ _
    cases ah with
    | none => simpa using hd1
    | some a =>
      refine distinct_snoc hd1 ?_
      obtain ⟨e, _, hn⟩ := h2 a rfl
      rw [e, lookup_none]
      intro x hx
      cases hh with
      | none => exact lookup_none.1 hn x hx
      | some y =>
        rcases List.mem_append.1 hx with hx | hx
        · exact lookup_none.1 hn x (mem_without.1 hx).1
        · rw [List.mem_singleton.1 hx, (h1 y rfl).1]; decide
  · intro x hx
    rcases hm x hx with e | e | e
    · exact h.coding x e
    · rw [(h1 x e).1]; decide
    · rw [(h2 x e).1]; decide
  · intro x hx hxl
    rcases hm x hx with e | e | e
    · exact h.length x e hxl
    · rw [(h1 x e).1] at hxl; exact absurd hxl (by decide)
    · rw [(h2 x e).1] at hxl; exact absurd hxl (by decide)

theorem mput_new {k v : List UInt8} {t : List (List UInt8 × List (List UInt8))} (hk : k ≠ []) (h : ∀ e ∈ t, ¬ Alike e.1 k) : mput k v t = t ++ [(k, [v])] := by
  unfold mput
  rw [if_neg hk, if_neg]
  intro ha
  obtain ⟨e, he, hs⟩ := List.any_eq_true.1 ha
  exact h e he (same_iff.1 hs)

/-- The table of the headers. -/
def tabled (h : Hdr) : List UInt8 × List (List UInt8) := (h.name, [h.text])

theorem mput_fold : ∀ (l acc : List Hdr), (∀ h ∈ l, h.name ≠ []) → Distinct (acc ++ l) → (l.map fun h => (h.name, h.text)).foldl (fun t e => mput e.1 e.2 t) (acc.map tabled) = (acc ++ l).map tabled
  | [], acc, _, _ => by simp
  | x :: l, acc, h1, h2 => by
    rw [List.map_cons, List.foldl_cons]
    simp only
    rw [mput_new (h1 x (by simp)) (by
      intro e he
      obtain ⟨y, hy, rfl⟩ := List.mem_map.1 he
      exact (List.pairwise_append.1 h2).2.2 y hy x (by simp))]
    have e : acc ++ x :: l = acc ++ [x] ++ l := by simp
    rw [e] at h2 ⊢
    rw [← mput_fold l (acc ++ [x]) (fun y hy => h1 y (by simp [hy])) h2]
    simp [tabled]

theorem pairs_tabled (l : List Hdr) : pairs (l.map tabled) = l.map fun h => (h.name, h.text) := by
  unfold pairs tabled
  rw [List.flatMap_map]
  simp only [List.map_cons, List.map_nil]
  induction l with
  | nil => rfl
  | cons x l ih => rw [List.flatMap_cons, ih]; rfl

theorem tdel_tabled (n : List UInt8) (hs : List Hdr) : tdel n (hs.map tabled) = (without n hs).map tabled := by
  rw [tdel, without, List.filter_map]
  congr 2
  funext h
  by_cases hh : Alike h.name n
  · simp [tabled, hh, same_iff.2 hh]
  · have : same h.name n = false := by rw [← Bool.not_eq_true, same_iff]; exact hh
    simp [tabled, hh, this]

theorem tget_tabled (n : List UInt8) (hs : List Hdr) : (tget n (hs.map tabled)).isSome = (lookup hs n).isSome := by
  unfold tget lookup
  rw [List.find?_map]
  have : ((fun e : List UInt8 × List (List UInt8) => same e.1 n) ∘ tabled) = fun h : Hdr => decide (Alike h.name n) := by
    funext h
    by_cases hh : Alike h.name n
    · simp [tabled, hh, same_iff.2 hh]
    · have : same h.name n = false := by rw [← Bool.not_eq_true, same_iff]; exact hh
      simp [tabled, hh, this]
  rw [this]
  simp

theorem request_headers (h : Input us ct cs body) {host uri : List UInt8} {agent : Option Hdr} (ha : Asked us host agent uri) (port : Nat) :
    requestHeaders (us.map fun h => (h.name, h.text)) host port ((agent.map (·.text)).getD []) =
      some ((requested us (hostHdr host port (decimal port)) agent).map fun h => (h.name, h.text)) := by
  unfold requestHeaders
  have e0 : (us.map fun h => (h.name, h.text)).foldl (fun t e => mput e.1 e.2 t) [] = us.map tabled := mput_fold us [] (fun x hx => (h.good x hx).name_ne) h.distinct
  simp only [e0]
  have fin : ∀ l : List Hdr, (∀ x ∈ l, ¬ Alike x.name cAgent ∨ agent = none) → pairs (if (agent.map (·.text)).getD [] = [] then l.map tabled else mput kAgent ((agent.map (·.text)).getD []) (l.map tabled)) =
      (l ++ agent.toList).map fun h => (h.name, h.text) := by
    intro l hl
    cases agent with
    | none => simp [pairs_tabled]
    | some a =>
      obtain ⟨e, hg, _⟩ := ha.agent a rfl
      simp only [Option.map_some, Option.getD_some]
      rw [if_neg hg.text_ne, mput_new (by decide) (by
        intro y hy
        obtain ⟨x, hx, rfl⟩ := List.mem_map.1 hy
        rcases hl x hx with hh | hh
        · exact hh
        · cases hh)]
      have : l.map tabled ++ [(kAgent, [a.text])] = (l ++ [a]).map tabled := by simp [tabled, e]; rfl
      rw [this, pairs_tabled]
      rfl
  have hnoag : ∀ x ∈ us, ¬ Alike x.name cAgent ∨ agent = none := by
    intro x hx
    cases hag : agent with
    | none => exact .inr rfl
    | some a => exact .inl (lookup_none.1 (ha.agent a hag).2.2 x hx)
  unfold requested hosted hostHdr
  by_cases hh : host = []
  · rw [if_neg (by simp [hh]), if_pos hh, show kHost = cHost from rfl, if_pos (by rw [tget_tabled]; exact ha.header hh), Option.map_some, fin us hnoag]
  · rw [if_pos hh, if_neg hh, Option.map_some, show kHost = cHost from rfl, tdel_tabled, mput_new (by decide) (by
      intro y hy
      obtain ⟨x, hx, rfl⟩ := List.mem_map.1 hy
      exact (mem_without.1 hx).2)]
    have e1 : (without cHost us).map tabled ++ [(cHost, [if port = 0 ∨ port = 80 then host else host ++ [58] ++ decimal port])] = (without cHost us ++ [one cHost (hostText host port (decimal port))]).map tabled := by
      rw [List.map_append, List.map_cons, List.map_nil, tabled, text_one]; rfl
    rw [e1, fin]
    intro x hx
    rcases List.mem_append.1 hx with hx | hx
    · exact hnoag x (mem_without.1 hx).1
    · rw [List.mem_singleton.1 hx]; exact .inl (show ¬ Alike cHost cAgent by decide)

/-- **C87**, requests. -/
theorem request_read (h : Input us ct cs body) {data : Option (List UInt8)} {len : Nat} (hd : Data (lookup us cLength).isSome cs data len body) (now : Int)
    {host uri : List UInt8} {agent : Option Hdr} (ha : Asked us host agent uri) (m : Method) (port : Nat) :
    ∃ t p d dt, Target uri t ∧ Digits 10 p port ∧ Digits 10 d body.length ∧ DateOf now dt ∧
      writeRequest now (some m) host port uri ((agent.map (·.text)).getD []) ((ct.map (·.text)).getD []) (us.map fun h => (h.name, h.text)) data len cs =
        .ok (head [] (.request m t .v11) ((expected (requested us (hostHdr host port p) agent) d ct cs dt).map Hdr.field) ++ body) ∧
      ((Start.request m t .v11).line.length ≤ 6144 → size ((expected (requested us (hostHdr host port p) agent) d ct cs dt).map Hdr.field) ≤ 8192 → ∀ uriOk, uriOk t = true →
        ReadAs uriOk (.request m t .v11) 0 (expected (requested us (hostHdr host port p) agent) d ct cs dt) body
          (head [] (.request m t .v11) ((expected (requested us (hostHdr host port p) agent) d ct cs dt).map Hdr.field) ++ body)) := by
  have hdig := decimal_digits body.length
  have hpd := decimal_digits port
  obtain ⟨hi, hlen⟩ := requested_input h (hh := hostHdr host port (decimal port)) (ah := agent) (by
    intro x hx
    unfold hostHdr at hx
    split at hx
    · cases hx
    · next hne =>
      injection hx with hx
      rw [← hx]
      exact ⟨rfl, good_host hne ha.hostOuter ha.hostByte hpd⟩) ha.agent
  rw [← hlen] at hd
  obtain ⟨t, ht1, ht2⟩ := target_eq uri
  obtain ⟨dt, h1, h2, h3⟩ := int_eq hi (set_stored hi.good hi.distinct []) hd now
  refine ⟨t, decimal port, decimal body.length, dt, ht2, hpd, hdig, h1, ?_, ?_⟩
  · simp only [writeRequest, ht1, request_headers h ha port, h3, method_eq]
    simp [head, Start.line, versionText, sVersion, eol, crlf]
  · intro hl hz uriOk hu
    obtain ⟨b1, b2⟩ := target_bytes ht2 ha.uri
    exact readAs (s := .request m t .v11) ⟨b1, b2, hu⟩ hl hi hdig h2 hz

end

/-! ### The reasons -/

/-- The names of the status codes (RFC 9110 and its registry). -/
def reasons : List (Nat × String) :=
  [(100, "Continue"), (101, "Switching Protocols"), (102, "Processing"), (103, "Early Hints"), (200, "OK"),
   (201, "Created"), (202, "Accepted"), (203, "Non-Authoritative Information"), (204, "No Content"), (205, "Reset Content"),
   (206, "Partial Content"), (207, "Multi-Status"), (208, "Already Reported"), (226, "IM Used"), (300, "Multiple Choices"),
   (301, "Moved Permanently"), (302, "Found"), (303, "See Other"), (304, "Not Modified"), (305, "Use Proxy"),
   (306, "Switch Proxy"), (307, "Temporary Redirect"), (308, "Permanent Redirect"), (400, "Bad Request"), (401, "Unauthorized"),
   (402, "Payment Required"), (403, "Forbidden"), (404, "Not Found"), (405, "Method Not Allowed"), (406, "Not Acceptable"),
   (407, "Proxy Authentication Required"), (408, "Request Timeout"), (409, "Conflict"), (410, "Gone"), (411, "Length Required"),
   (412, "Precondition Failed"), (413, "Payload Too Large"), (414, "URI Too Long"), (415, "Unsupported Media Type"), (416, "Range Not Satisfiable"),
   (417, "Expectation Failed"), (418, "I'm a teapot"), (421, "Misdirected Request"), (422, "Unprocessable Entity"), (423, "Locked"),
   (424, "Failed Dependency"), (426, "Upgrade Required"), (428, "Precondition Required"), (429, "Too Many Requests"), (431, "Request Header Fields Too Large"),
   (451, "Unavailable For Legal Reasons"), (500, "Internal Server Error"), (501, "Not Implemented"), (502, "Bad Gateway"), (503, "Service Unavailable"),
   (504, "Gateway Timeout"), (505, "HTTP Version Not Supported"), (506, "Variant Also Negotiates"), (507, "Insufficient Storage"), (508, "Loop Detected"),
   (510, "Not Extended"), (511, "Network Authentication Required")]

/-- **C87**, the reason if none is given: the name of the status code. -/
theorem reason_names : (∀ e ∈ reasons, reasonText e.1 = e.2.toList.map fun c => UInt8.ofNat c.toNat) ∧ ∀ n, n ∉ reasons.map (·.1) → reasonText n = [71, 101, 110, 101, 114, 105, 99] := by
  refine ⟨by decide +kernel, ?_⟩
  intro n hn
  unfold reasonText
  split <;> first | rfl | exact absurd (by decide +kernel) hn

/-! ### Examples -/

/-- `text/html`. -/
def hHtml : Hdr := one cType [116, 101, 120, 116, 47, 104, 116, 109, 108]

theorem hHtml_good : hHtml.Good := good_one (by decide) (by decide) (by decide) (by decide) (by decide) (by decide) (by decide)

/-- `utf-8`. -/
def utf8 : List UInt8 := [117, 116, 102, 45, 56]

theorem hHtml_charset : (hHtml.withCharset utf8).Good := by
  refine ⟨⟨by decide, by decide, by decide, by decide, by decide, by decide⟩, by decide, by decide, ?_, by decide⟩
  intro p hp
  simp only [hHtml, one, Hdr.withCharset, utf8, List.map_cons, List.map_nil] at hp
  rw [if_neg (by decide), List.mem_singleton] at hp
  subst hp; exact ⟨by decide, by decide, by decide, by decide, by decide, by decide, by decide⟩

/-- A text without the letter `b` has no boundary in it. -/
theorem no_boundary {t : List UInt8} (h : ∀ c ∈ t, toLower c ≠ 98) (a b c : List UInt8) (e : t = a ++ b ++ c) : ¬ Is b vBoundary := by
  intro hb
  cases b with
  | nil => cases hb
  | cons x b =>
    have : toLower x = 98 := by
      unfold Is at hb
      rw [List.map_cons] at hb
      exact (List.cons.inj hb).1
    exact h x (by rw [e]; simp) this

/-- The hypotheses of `response_read` and `request_read` hold for a header `Accept: text/html; q=0.5, */*`, the type `text/html`, the character
set `utf-8` and a text of two bytes without a length. -/
example : Input [hAccept] (some hHtml) utf8 [104, 105] ∧ Data (lookup [hAccept] cLength).isSome utf8 (some [104, 105, 0, 7]) 0 [104, 105] ∧
    Asked [hAccept] [104] (some (one cAgent [109, 101])) [47, 97, 32, 98] := by
  refine ⟨⟨by simp [hAccept_good], List.pairwise_singleton _ _, by simp only [List.mem_singleton, forall_eq]; decide, by simp only [List.mem_singleton, forall_eq]; exact fun hh => absurd hh (by decide), by decide, ?_, ?_, ?_, by decide⟩, ?_, ?_⟩
  · intro t ht
    injection ht with ht
    rw [← ht]; exact ⟨rfl, hHtml_good⟩
  · exact hHtml_charset
  · exact ⟨by decide, by decide, fun _ => ⟨by decide, no_boundary (by decide)⟩⟩
  · exact Data.text (body := [104, 105]) (rest := [7]) (cs := utf8) rfl (by decide) (by decide) (by decide)
  · refine ⟨by decide, by decide, by decide, ?_, by decide⟩
    intro a ha
    injection ha with ha
    rw [← ha]
    exact ⟨rfl, good_one (by decide) (by decide) (by decide) (by decide) (by decide) (by decide) (by decide), lookup_none.2 (by simp only [List.mem_singleton, forall_eq]; decide)⟩

/-- For these headers the data may also have a number of bytes, and there may be none. -/
example : Data false utf8 (some [104, 105, 0, 7]) 3 [104, 105, 0] ∧ Data false utf8 none 0 [] :=
  ⟨Data.bytes (body := [104, 105, 0]) (rest := [7]) (.inr (.inr (.inl (by decide)))), .null⟩

/-! ### What is refused -/

/-- **C87**: a response is not written if a length among the headers is not that of the data, and not if the length of the data is given
and there is a transfer encoding among the headers. -/
theorem response_refused {us : List Hdr} (hg : ∀ h ∈ us, h.Good) (hd : Distinct us) {y : Hdr} (hy : y ∈ us) (d : List UInt8) (len : Nat)
    (hbad : (∃ n, y.field.Length n ∧ n ≠ len) ∨ (Is y.name nEncoding ∧ len ≠ 0)) (now : Int) (code : Nat) (reason ct cs : List UInt8) :
    writeResponse now code reason ct (us.map fun h => (h.name, h.text)) (some d) len cs = .fail := by
  have key : writeInt now ct (us.map fun h => (h.name, h.text)) (some d) len cs = .fail := by
    rw [writeInt, set_stored hg hd]
    simp only
    rcases hbad with ⟨n, ⟨h1, ⟨ds, h2, h3⟩, h4⟩, h5⟩ | ⟨h1, h2⟩
    · split
      · rfl
      · have ht : y.text = ds := by rw [Hdr.text, Field.text, h2]; rfl
        have hl : writeLength (us.map stored) (some d) len cs = some none := by
          unfold writeLength
          rw [show kLength = cLength from rfl, dict_eq hg, lookup_mem hd hy (alike_length.2 h1)]
          simp only [Option.map_some, Option.getD_some, ht]
          rw [int64_digits (by omega) h3 h4 [0]]
          simp [h5]
        rw [hl]
    · rw [if_pos ⟨⟨rfl, h2⟩, by rw [dict_eq hg, lookup_mem hd hy (alike_encoding.2 h1)]; rfl⟩]
  rw [writeResponse, key]

example : Hdr.Good (one cLength [52]) ∧ (one cLength [52]).field.Length 4 ∧ Is (one kEncoding vChunked).name nEncoding := by
  have h : Digits 10 [52] 4 := ⟨by decide, by decide, by decide⟩
  exact ⟨good_length h, ⟨by decide, ⟨[52], rfl, h⟩, by decide⟩, by decide⟩

/-! ### What is also written -/

/-- `Evil`. -/
def sEvil : List UInt8 := [69, 118, 105, 108]
/-- `1`, the end of a line and `Evil: 1`. -/
def sInject : List UInt8 := [49, 13, 10, 69, 118, 105, 108, 58, 32, 49]

/-- The hypotheses of C87 are needed.  A line end in the value of a header or in a reason makes another header; that in an
address goes into the first line; a length `3, 4` is accepted; a `Content-Length` is not compared with data that is NULL; a text whose
length is not given goes with a `Transfer-Encoding`, which is refused if the length is given; a header with an empty value is written
without one; a program that the headers name too gets both names; an address that has escapes is escaped again if it has a space;
data of no bytes is read. -/
theorem writer_fails :
    writeResponse 0 200 [] [] [([88], sInject)] none 0 [] = writeResponse 0 200 [] [] [([88], [49]), (sEvil, [49])] none 0 [] ∧
    writeResponse 0 200 sInject [] [] none 0 [] = writeResponse 0 200 [49] [] [(sEvil, [49])] none 0 [] ∧
    writeTarget [47, 13, 10, 69, 118, 105, 108, 58, 49] = some (some [47, 13, 10, 69, 118, 105, 108, 58, 49]) ∧
    (∃ a b, writeResponse 0 200 [] [] [(cLength, [51, 44, 32, 52])] (some [97, 98, 99]) 3 [] = .ok (a ++ cLength ++ [58, 32, 51, 44, 32, 52, 13, 10] ++ b)) ∧
    (∃ a, writeResponse 0 200 [] [] [(cLength, [51])] none 0 [] = .ok (a ++ [13, 10, 13, 10])) ∧
    writeResponse 0 200 [] [] [(kEncoding, vChunked)] (some [97, 98, 99, 0]) 3 utf8 = .fail ∧
    (∃ a b, writeResponse 0 200 [] [] [(kEncoding, vChunked)] (some [97, 98, 99, 0]) 0 utf8 = .ok (a ++ kEncoding ++ [58, 32] ++ vChunked ++ [13, 10] ++ cLength ++ [58, 32, 51, 13, 10] ++ b)) ∧
    (∃ a b, writeResponse 0 200 [] [] [([88], [])] none 0 [] = .ok (a ++ [13, 10, 88, 58, 32, 13, 10] ++ b)) ∧
    (∃ a b, writeRequest 0 (some .get) [104] 80 [] [109, 101] [] [(cAgent, [121, 111, 117])] none 0 [] = .ok (a ++ cAgent ++ [58, 32, 121, 111, 117, 44, 32, 109, 101, 13, 10] ++ b)) ∧
    writeTarget [47, 97, 37, 50, 48, 98, 32, 99] = some (some [47, 97, 37, 50, 53, 50, 48, 98, 37, 50, 48, 99]) ∧
    writeResponse 0 200 [] [] [] (some []) 0 utf8 = .ub := by
  refine ⟨by decide +kernel, by decide +kernel, by decide +kernel, ?_, ?_, by decide +kernel, ?_, ?_, ?_, by decide +kernel, by decide +kernel⟩
  · exact ⟨[72, 84, 84, 80, 47, 49, 46, 49, 32, 50, 48, 48, 32, 79, 75, 13, 10], [67, 111, 110, 116, 101, 110, 116, 45, 84, 121, 112, 101, 58, 32, 97, 112, 112, 108, 105, 99, 97, 116, 105, 111, 110, 47, 111, 99, 116, 101, 116, 45, 115, 116, 114, 101, 97, 109, 13, 10, 68, 97, 116, 101, 58, 32, 84, 104, 117, 44, 32, 48, 49, 32, 74, 97, 110, 32, 49, 57, 55, 48, 32, 48, 48, 58, 48, 48, 58, 48, 48, 32, 71, 77, 84, 13, 10, 13, 10, 97, 98, 99], by decide +kernel⟩
  · exact ⟨[72, 84, 84, 80, 47, 49, 46, 49, 32, 50, 48, 48, 32, 79, 75, 13, 10, 67, 111, 110, 116, 101, 110, 116, 45, 76, 101, 110, 103, 116, 104, 58, 32, 51, 13, 10, 67, 111, 110, 116, 101, 110, 116, 45, 84, 121, 112, 101, 58, 32, 97, 112, 112, 108, 105, 99, 97, 116, 105, 111, 110, 47, 111, 99, 116, 101, 116, 45, 115, 116, 114, 101, 97, 109, 13, 10, 68, 97, 116, 101, 58, 32, 84, 104, 117, 44, 32, 48, 49, 32, 74, 97, 110, 32, 49, 57, 55, 48, 32, 48, 48, 58, 48, 48, 58, 48, 48, 32, 71, 77, 84], by decide +kernel⟩
  · exact ⟨[72, 84, 84, 80, 47, 49, 46, 49, 32, 50, 48, 48, 32, 79, 75, 13, 10], [67, 111, 110, 116, 101, 110, 116, 45, 84, 121, 112, 101, 58, 32, 116, 101, 120, 116, 47, 112, 108, 97, 105, 110, 59, 32, 99, 104, 97, 114, 115, 101, 116, 61, 117, 116, 102, 45, 56, 13, 10, 68, 97, 116, 101, 58, 32, 84, 104, 117, 44, 32, 48, 49, 32, 74, 97, 110, 32, 49, 57, 55, 48, 32, 48, 48, 58, 48, 48, 58, 48, 48, 32, 71, 77, 84, 13, 10, 13, 10, 97, 98, 99], by decide +kernel⟩
  · exact ⟨[72, 84, 84, 80, 47, 49, 46, 49, 32, 50, 48, 48, 32, 79, 75], [67, 111, 110, 116, 101, 110, 116, 45, 76, 101, 110, 103, 116, 104, 58, 32, 48, 13, 10, 67, 111, 110, 116, 101, 110, 116, 45, 84, 121, 112, 101, 58, 32, 97, 112, 112, 108, 105, 99, 97, 116, 105, 111, 110, 47, 111, 99, 116, 101, 116, 45, 115, 116, 114, 101, 97, 109, 13, 10, 68, 97, 116, 101, 58, 32, 84, 104, 117, 44, 32, 48, 49, 32, 74, 97, 110, 32, 49, 57, 55, 48, 32, 48, 48, 58, 48, 48, 58, 48, 48, 32, 71, 77, 84, 13, 10, 13, 10], by decide +kernel⟩
  · exact ⟨[71, 69, 84, 32, 47, 32, 72, 84, 84, 80, 47, 49, 46, 49, 13, 10], [72, 111, 115, 116, 58, 32, 104, 13, 10, 67, 111, 110, 116, 101, 110, 116, 45, 76, 101, 110, 103, 116, 104, 58, 32, 48, 13, 10, 67, 111, 110, 116, 101, 110, 116, 45, 84, 121, 112, 101, 58, 32, 97, 112, 112, 108, 105, 99, 97, 116, 105, 111, 110, 47, 111, 99, 116, 101, 116, 45, 115, 116, 114, 101, 97, 109, 13, 10, 68, 97, 116, 101, 58, 32, 84, 104, 117, 44, 32, 48, 49, 32, 74, 97, 110, 32, 49, 57, 55, 48, 32, 48, 48, 58, 48, 48, 58, 48, 48, 32, 71, 77, 84, 13, 10, 13, 10], by decide +kernel⟩

end Verif.Http.Frame
