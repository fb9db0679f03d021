import Verif.Http.FrameSteps
import Verif.Http.Props
/- C85: the extent of a message. -/
namespace Verif.Http.Frame
open Verif.Chr (isSpace toLower)
open Verif.Str (NoOuter join)

section
variable {cb : Cb} (hcb : ∀ e, cb e = none) {uriOk : List UInt8 → Bool} {ws : List UInt8} {s : Start} {code : Nat} {fs : List Field}
include hcb

omit hcb in
theorem head_ne : head ws s fs ≠ [] := by simp [head, eol]

omit hcb in
theorem begun_facts (s : Start) : (begun s).step = .header ∧ (begun s).haveLen = false ∧ (begun s).bodyLen = 0 ∧ (begun s).format = .body ∧ (begun s).headerLen = 0 ∧ (begun s).seen = 0 ∧
    (begun s).part = 0 ∧ ((begun s).kind = .request ↔ s.isRequest) ∧ ((begun s).noBody = true ↔ s.bodiless) := by
  cases s with
  | request m t v =>
    refine ⟨rfl, rfl, rfl, rfl, rfl, rfl, rfl, by simp [begun, started, Start.isRequest], ?_⟩
    simp only [begun, started, Start.bodiless, init]
    split <;> simp_all
  | response v c r => exact ⟨rfl, rfl, rfl, rfl, rfl, rfl, rfl, by simp [begun, started, Start.isRequest], by simp [begun, started, Start.bodiless, init]⟩

theorem tail_eq {st : St} {p : List UInt8} (h : (calculateBodyLen (chooseStep st)).1 = .ok) :
    tail cb st p = (readContent cb (calculateBodyLen (chooseStep st)).2 p).pre [.headerDone (calculateBodyLen (chooseStep st)).2.format] := by
  unfold tail endOfHeader
  simp only [h, ne_eq, not_true_eq_false, if_false]
  rw [andThen_go (call_ok hcb _) rfl]
  rfl

theorem tail_none {st : St} (h1 : st.format = .none) (h2 : st.haveLen = true) (p : List UInt8) :
    ∃ st', tail cb st p = ⟨.ok, true, st', p, [.headerDone .none]⟩ ∧ st'.step = .done := by
  have e1 : chooseStep st = { st with step := .done } := by simp [chooseStep, h1]
  have e2 : calculateBodyLen { st with step := .done } = (.ok, { st with step := .done }) := by simp [calculateBodyLen, h1, h2]
  refine ⟨{ st with step := .done }, ?_, rfl⟩
  rw [tail_eq hcb (by rw [e1, e2]), e1, e2, content_done rfl]
  simp [Out.pre, h1]

theorem tail_sized {st : St} {body : List UInt8} (h1 : st.format = .body) (h2 : st.haveLen = true) (h3 : st.bodyLen = body.length) (h4 : st.seen = 0) (hb : body ≠ []) (extra : List UInt8) :
    ∃ st', tail cb st (body ++ extra) = ⟨.ok, true, st', extra, [.headerDone .body, .body body, .bodyDone]⟩ ∧ st'.step = .done := by
  have hl0 : body.length ≠ 0 := fun hh => hb (List.length_eq_zero_iff.1 hh)
  have e1 : chooseStep st = { st with step := .body } := by simp [chooseStep, h1, h2]
  have e2 : calculateBodyLen { st with step := .body } = (.ok, { st with step := .body }) := by simp [calculateBodyLen, h1, h2]
  refine ⟨{ st with step := .done, seen := body.length }, ?_, rfl⟩
  rw [tail_eq hcb (by rw [e1, e2]), e1, e2, content_body rfl, readBody_eq (takes hcb) _ _ (by simp only [h3, h4]; omega) (by simp [hb])]
  have e3 : bodyTake { st with step := .body } (body ++ extra).length = body.length := by
    simp only [bodyTake, h2, h3, h4, if_true, List.length_append]; omega
  rw [e3]
  simp only [h4, Nat.zero_add, h2, h3, List.drop_left, List.take_left]
  rw [andThen_go rfl (by simp)]
  simp [Out.pre, emit, call_ok hcb, h1]

theorem tail_request {st : St} (h1 : st.format = .body) (h2 : st.haveLen = false) (h3 : st.kind = .request) (p : List UInt8) :
    ∃ st', tail cb st p = ⟨.ok, true, st', p, if st.noBody then [.headerDone .none] else [.headerDone .body, .bodyDone]⟩ ∧ st'.step = .done := by
  by_cases hn : st.noBody = true
  · have e1 : chooseStep st = { st with step := .done, format := .none } := by simp [chooseStep, h1, h2, hn]
    have e2 : calculateBodyLen { st with step := .done, format := .none } = (.ok, { st with step := .done, format := .none, haveLen := true, bodyLen := 0 }) := by simp [calculateBodyLen, h2, h3]
    refine ⟨{ st with step := .done, format := .none, haveLen := true, bodyLen := 0 }, ?_, rfl⟩
    rw [tail_eq hcb (by rw [e1, e2]), e1, e2, content_done rfl]
    simp [Out.pre, hn]
  · have e1 : chooseStep st = { st with step := .body } := by simp [chooseStep, h1, hn]
    have e2 : calculateBodyLen { st with step := .body } = (.ok, { st with step := .body, haveLen := true, bodyLen := 0 }) := by simp [calculateBodyLen, h1, h2, h3]
    refine ⟨{ st with step := .done, haveLen := true, bodyLen := 0 }, ?_, rfl⟩
    rw [tail_eq hcb (by rw [e1, e2]), e1, e2, content_body rfl, readBody, if_pos (by simp), andThen_go rfl rfl]
    simp [Out.pre, emit, call_ok hcb, h1, hn]

theorem tail_response {st : St} (h1 : st.format = .body) (h2 : st.haveLen = false) (h3 : st.kind ≠ .request) (h4 : st.noBody = false) (p : List UInt8) :
    ∃ st', tail cb st p = ⟨.ok, false, st', [], .headerDone .body :: if p = [] then [] else [.body p]⟩ ∧ st'.step = .body ∧ st'.format = .body ∧ st'.haveLen = false := by
  have e1 : chooseStep st = { st with step := .body } := by simp [chooseStep, h1, h4]
  have e2 : calculateBodyLen { st with step := .body } = (.ok, { st with step := .body }) := by simp [calculateBodyLen, h1, h2, h3]
  by_cases hp : p = []
  · refine ⟨{ st with step := .body }, ?_, rfl, h1, h2⟩
    rw [tail_eq hcb (by rw [e1, e2]), e1, e2, content_body rfl, readBody, if_neg (by simp [h2]), if_pos hp, andThen_stop (.inr rfl)]
    simp [Out.pre, h1, hp]
  · refine ⟨{ st with step := .body, seen := st.seen + p.length }, ?_, rfl, h1, h2⟩
    rw [tail_eq hcb (by rw [e1, e2]), e1, e2, content_body rfl, readBody_eq (takes hcb) _ _ (by simp [h2]) hp]
    have e3 : bodyTake { st with step := .body } p.length = p.length := by simp [bodyTake, h2]
    rw [e3, andThen_stop (.inr (by simp [h2]))]
    simp [Out.pre, h1, hp, h2]

theorem tail_chunked {st : St} (h1 : st.format = .chunked) (h2 : st.part = 0) {cs : List Chunk} (hc : ∀ c ∈ cs, c.Good) {last : Size} (hl : last.Good 0) {ts : List Field}
    (ht : ∀ f ∈ ts, f.Good) (hts : size ts ≤ 8192) (p : List UInt8) :
    ∃ st', tail cb st (chunks cs ++ (last.line ++ crlf ++ (lines ts ++ crlf ++ p))) =
      ⟨.ok, true, st', p, .headerDone .chunked :: (chunkEvs 0 cs ++ last.evs cs.length ++ [.chunkFinished] ++ trailerEvs ts ++ [.trailerDone])⟩ ∧ st'.step = .done := by
  have e1 : chooseStep st = { st with step := .chunkStart } := by simp [chooseStep, h1]
  have e2 : calculateBodyLen { st with step := .chunkStart } = (.ok, { st with step := .chunkStart }) := by simp [calculateBodyLen, h1]
  obtain ⟨st1, a1, a2, a3⟩ := chunk_list hcb (last.line ++ crlf ++ (lines ts ++ crlf ++ p)) cs { st with step := .chunkStart } hc rfl
  obtain ⟨st2, b1, b2⟩ := chunk_last hcb hl ht hts a2 p
  refine ⟨st2, ?_, b2⟩
  rw [tail_eq hcb (by rw [e1, e2]), e1, e2, content_chunked (.inl rfl), a1, b1, a3]
  simp [Out.pre, h1, h2]

/-- From the steps to the function. -/
theorem read_of (h : Head uriOk ws s code fs) {st : St} (hr : Run cb (begun s) fs st) {body extra : List UInt8} {evs : List Ev}
    (ht : ∃ st', tail cb st (body ++ extra) = ⟨.ok, true, st', extra, evs⟩ ∧ st'.step = .done) :
    ∃ st', read cb uriOk false init (head ws s fs ++ body ++ extra) = (.success, (head ws s fs ++ body).length, st', s.ev code :: headerEvs fs ++ evs) ∧ st'.step = .done := by
  obtain ⟨st', h1, h2⟩ := ht
  have hst := read_head hcb h hr (body ++ extra)
  rw [← List.append_assoc, h1] at hst
  refine ⟨st', ?_, h2⟩
  rw [read, if_neg (by simp [head_ne]), if_neg (by decide)]
  simp only [hst, Out.pre]
  simp [verdict, h2]
  omega

/-- C85, a message with the length of its body: the reader accepts it, tells of its parts as they were sent, and stops at its
end, whatever follows. -/
theorem read_sized (h : Head uriOk ws s code fs) {body : List UInt8} (hs : Sized body.length fs) (extra : List UInt8) :
    ∃ st, read cb uriOk false init (head ws s fs ++ body ++ extra) = (.success, (head ws s fs ++ body).length, st,
      s.ev code :: headerEvs fs ++ if body = [] then [.headerDone .none] else [.headerDone .body, .body body, .bodyDone]) ∧ st.step = .done := by
  obtain ⟨b1, b2, b3, b4, b5, b6, b7, b8, b9⟩ := begun_facts s
  have hr := run_sized hcb h.fields hs b1 b2 (by rw [b5]; have := h.fieldsLen; omega)
  rw [if_neg (by rw [b4]; simp)] at hr
  refine read_of hcb h hr ?_
  by_cases hb : body = []
  · rw [if_pos hb, hb]
    exact tail_none hcb (by simp) rfl _
  · rw [if_neg hb]
    have hl0 : body.length ≠ 0 := fun hh => hb (List.length_eq_zero_iff.1 hh)
    have := tail_sized hcb (st := { begun s with format := if body.length = 0 then .none else (begun s).format, haveLen := true, bodyLen := body.length, headerLen := (begun s).headerLen + size fs })
      (by simp only [if_neg hl0]; exact b4) rfl rfl b6 hb extra
    exact this

/-- C85, a message in chunks: the same.  A length that is also given is ignored. -/
theorem read_coded (h : Head uriOk ws s code fs) (hs : Coded fs) {cs : List Chunk} (hc : ∀ c ∈ cs, c.Good) {last : Size} (hl : last.Good 0) {ts : List Field}
    (ht : ∀ f ∈ ts, f.Good) (hts : size ts ≤ 8192) (extra : List UInt8) :
    ∃ st, read cb uriOk false init (head ws s fs ++ (chunks cs ++ last.line ++ eol ++ lines ts ++ eol) ++ extra) =
      (.success, (head ws s fs ++ (chunks cs ++ last.line ++ eol ++ lines ts ++ eol)).length, st,
        s.ev code :: headerEvs fs ++ .headerDone .chunked :: (chunkEvs 0 cs ++ last.evs cs.length ++ [.chunkFinished] ++ trailerEvs ts ++ [.trailerDone])) ∧ st.step = .done := by
  obtain ⟨b1, b2, b3, b4, b5, b6, b7, b8, b9⟩ := begun_facts s
  have hr := run_coded hcb h.fields hs b1 b2 b3 (by rw [b4]; simp) (by rw [b5]; have := h.fieldsLen; omega)
  refine read_of hcb h hr ?_
  have := tail_chunked hcb (st := { begun s with haveLen := false, bodyLen := 0, format := .chunked, headerLen := (begun s).headerLen + size fs }) rfl b7 hc hl ht hts extra
  simpa [crlf, eol] using this

/-- C85, a request whose header says nothing about a body: it ends with the header. -/
theorem read_plain_request (h : Head uriOk ws s code fs) (hs : Plain fs) (hq : s.isRequest) (extra : List UInt8) [Decidable s.bodiless] :
    ∃ st, read cb uriOk false init (head ws s fs ++ extra) = (.success, (head ws s fs).length, st,
      s.ev code :: headerEvs fs ++ if s.bodiless then [.headerDone .none] else [.headerDone .body, .bodyDone]) ∧ st.step = .done := by
  obtain ⟨b1, b2, b3, b4, b5, b6, b7, b8, b9⟩ := begun_facts s
  have hr := run_inert hcb h.fields hs b1 (by rw [b5]; have := h.fieldsLen; omega)
  have ht := tail_request hcb (st := { begun s with headerLen := (begun s).headerLen + size fs }) b4 b2 (b8.2 hq) extra
  simp only [b9] at ht
  have := read_of hcb h hr (body := []) ht
  simpa using this

/-- C85, a response whose header says nothing about a body: all that follows is its body, and the reader says that there may
be more. -/
theorem read_plain_response (h : Head uriOk ws s code fs) (hs : Plain fs) (hq : ¬ s.isRequest) (body : List UInt8) :
    ∃ st, read cb uriOk false init (head ws s fs ++ body) = (.morePossible, (head ws s fs ++ body).length, st,
      s.ev code :: headerEvs fs ++ .headerDone .body :: if body = [] then [] else [.body body]) := by
  obtain ⟨b1, b2, b3, b4, b5, b6, b7, b8, b9⟩ := begun_facts s
  have hr := run_inert hcb h.fields hs b1 (by rw [b5]; have := h.fieldsLen; omega)
  have hnb : (begun s).noBody = false := by
    rw [Bool.eq_false_iff]
    intro hh
    have := b9.1 hh
    cases s with
    | request => exact hq trivial
    | response => exact this
  obtain ⟨st', t1, t2, t3, t4⟩ := tail_response hcb (st := { begun s with headerLen := (begun s).headerLen + size fs }) b4 b2 (fun hh => hq (b8.1 hh)) hnb body
  have hst := read_head hcb h hr body
  rw [t1] at hst
  refine ⟨st', ?_⟩
  rw [read, if_neg (by simp [head_ne]), if_neg (by decide)]
  simp only [hst, Out.pre]
  simp [verdict, t2, t3, t4]

omit hcb in
theorem no_multi {f : Format} (hf : f ≠ .multipart) (evs : List Ev) (h : ∀ e ∈ evs, ∀ g, e ≠ .headerDone g) : Ev.headerDone .multipart ∉ s.ev code :: headerEvs fs ++ .headerDone f :: evs := by
  have h1 : Ev.headerDone .multipart ∉ headerEvs fs := by
    simp [headerEvs]
  have h2 : Ev.headerDone .multipart ≠ s.ev code := by cases s <;> simp [Start.ev]
  simp only [List.mem_append, List.mem_cons, not_or]
  exact ⟨⟨h2, h1⟩, by simpa using fun hh => hf hh.symm, fun hh => h _ hh _ rfl⟩

/-- From one call to a stream of pieces. -/
theorem feed_of {m extra : List UInt8} {evs : List Ev} (h : ∃ st, read cb uriOk false init (m ++ extra) = (.success, m.length, st, evs) ∧ st.step = .done)
    (hm : Ev.headerDone .multipart ∉ evs) {ps : List (List UInt8)} (hps : ps ≠ []) (hne : ∀ p ∈ ps, p ≠ []) (he : ps.flatten = m ++ extra) :
    (feed cb uriOk false init [] ps).1 = .success ∧ (feed cb uriOk false init [] ps).2.1 = extra ∧ units (feed cb uriOk false init [] ps).2.2.2 = units evs := by
  obtain ⟨st, h1, _⟩ := h
  have := feed_read_partial (cb := cb) (uriOk := uriOk) (skip := false) (takes hcb) ps hps hne (by rw [he, h1]; exact hm)
  rw [he, h1] at this
  simp only [List.drop_left] at this
  exact ⟨this.1, this.2.1, this.2.2.2⟩

/-- C85 with C84: a message with a length that arrives in any pieces. -/
theorem feed_sized (h : Head uriOk ws s code fs) {body : List UInt8} (hs : Sized body.length fs) {extra : List UInt8} {ps : List (List UInt8)} (hps : ps ≠ []) (hne : ∀ p ∈ ps, p ≠ [])
    (he : ps.flatten = head ws s fs ++ body ++ extra) :
    (feed cb uriOk false init [] ps).1 = .success ∧ (feed cb uriOk false init [] ps).2.1 = extra ∧
      units (feed cb uriOk false init [] ps).2.2.2 = units (s.ev code :: headerEvs fs ++ if body = [] then [.headerDone .none] else [.headerDone .body, .body body, .bodyDone]) := by
  refine feed_of hcb (read_sized hcb h hs extra) ?_ hps hne he
  split
  · exact no_multi (by simp) [] (by simp)
  · exact no_multi (by simp) _ (by simp)

/-- C85 with C84: a message in chunks that arrives in any pieces. -/
theorem feed_coded (h : Head uriOk ws s code fs) (hs : Coded fs) {cs : List Chunk} (hc : ∀ c ∈ cs, c.Good) {last : Size} (hl : last.Good 0) {ts : List Field}
    (ht : ∀ f ∈ ts, f.Good) (hts : size ts ≤ 8192) {extra : List UInt8} {ps : List (List UInt8)} (hps : ps ≠ []) (hne : ∀ p ∈ ps, p ≠ [])
    (he : ps.flatten = head ws s fs ++ (chunks cs ++ last.line ++ eol ++ lines ts ++ eol) ++ extra) :
    (feed cb uriOk false init [] ps).1 = .success ∧ (feed cb uriOk false init [] ps).2.1 = extra ∧
      units (feed cb uriOk false init [] ps).2.2.2 = units (s.ev code :: headerEvs fs ++
        .headerDone .chunked :: (chunkEvs 0 cs ++ last.evs cs.length ++ [.chunkFinished] ++ trailerEvs ts ++ [.trailerDone])) := by
  refine feed_of hcb (read_coded hcb h hs hc hl ht hts extra) ?_ hps hne he
  apply no_multi (by simp)
  have h1 : ∀ (i : Nat) (z : Size), ∀ e ∈ z.evs i, ∀ g, e ≠ .headerDone g := by
    intro i z e he g
    unfold Size.evs at he
    split at he
    · simp at he
    · simp only [List.mem_append, List.mem_map, List.mem_singleton] at he
      rcases he with ⟨_, _, rfl⟩ | rfl <;> simp
  have h2 : ∀ (cs : List Chunk) (i : Nat), ∀ e ∈ chunkEvs i cs, ∀ g, e ≠ .headerDone g := by
    intro cs
    induction cs with
    | nil => intro i e he; simp [chunkEvs] at he
    | cons c cs ih =>
      intro i e he g
      simp only [chunkEvs, List.mem_append, List.mem_cons, List.not_mem_nil, or_false] at he
      rcases he with (he | rfl | rfl) | he
      · exact h1 _ _ _ he g
      · simp
      · simp
      · exact ih _ _ he g
  intro e he g
  simp only [List.mem_append, List.mem_singleton] at he
  rcases he with (((he | he) | rfl) | he) | rfl
  · exact h2 _ _ _ he g
  · exact h1 _ _ _ he g
  · simp
  · simp only [trailerEvs, List.mem_flatMap, List.mem_cons, List.mem_map] at he
    obtain ⟨_, _, rfl | ⟨_, _, rfl⟩⟩ := he <;> simp
  · simp

/-- C85: a header with two lengths, even equal ones, is refused. -/
theorem two_lengths (h : Head uriOk ws s code fs) {a b c : List Field} {f g : Field} {n m : Nat} (he : fs = a ++ f :: b ++ g :: c) (ha : Plain a) (hb : Plain b) (hf : f.Length n) (hg : g.Length m)
    (body : List UInt8) : (read cb uriOk false init (head ws s fs ++ body)).1 = .error .headerDuplicate := by
  obtain ⟨b1, b2, b3, b4, b5, b6, b7, b8, b9⟩ := begun_facts s
  have hsz : size fs = size (a ++ f :: b) + g.line.length + size c := by rw [he, size_append, size_cons]; omega
  have hle := h.fieldsLen
  have hgg : g.Good := h.fields g (by rw [he]; simp)
  have hr := run_sized hcb (n := n) (fs := a ++ f :: b) (fun x hx => h.fields x (by rw [he]; exact List.mem_append_left _ hx)) ⟨a, f, b, rfl, hf, ha, hb⟩ b1 b2 (by rw [b5]; omega)
  rw [if_neg (by rw [b4]; simp)] at hr
  obtain ⟨hg1, ⟨d, hg2, hg3⟩, hg4⟩ := hg
  generalize hst : ({ begun s with format := if n = 0 then .none else (begun s).format, haveLen := true, bodyLen := n, headerLen := (begun s).headerLen + size (a ++ f :: b) } : St) = st at hr
  have hstep : st.step = .header := by rw [← hst]; exact b1
  have hhave : st.haveLen = true := by rw [← hst]
  have hhl : st.headerLen + g.line.length ≤ 8192 := by rw [← hst]; simp only [b5]; omega
  have htx : g.text = d := by rw [Field.text, hg2]; rfl
  have hvals : g.values = [d] := by unfold Field.values; split <;> simp [htx, hg2]
  have hline : (headerLine cb st g.line).1 = .headerDuplicate := by
    rw [headerLine_eq hgg cb st hhl, headerKv_eq hgg cb _ (name_len hhl), hvals]
    have hsp := values_spec hgg d (by rw [hvals]; simp)
    have hw := name_len hhl
    have hs' : ({ st with headerLen := st.headerLen + g.line.length } : St).step = .header := hstep
    have hh' : ({ st with headerLen := st.headerLen + g.line.length } : St).haveLen = true := hhave
    generalize ({ st with headerLen := st.headerLen + g.line.length } : St) = sx at hs' hh' ⊢
    have hv : validate sx g.name d = (.headerDuplicate, sx) := by
      have h1 : Str.eq true g.name sContentLength = true := (eq_is hw (by decide) (by decide)).2 hg1
      unfold validate
      simp only [h1, if_true, validateLength, hh']
      simp
    have hp : process cb sx g.name (some d) = (.headerDuplicate, sx, []) := by
      unfold process
      simp only [hs', Option.getD_some, hv]
      simp
    simp only [valueLoop, hsp.2, if_neg hsp.1, hp]
    simp
  obtain ⟨_, c0, r0, hc0, hsp0⟩ := start_cr h.start
  have e : head ws s fs ++ body = ws ++ (s.line ++ crlf ++ (lines (a ++ f :: b) ++ (g.line ++ crlf ++ (lines c ++ (crlf ++ body))))) := by
    rw [head, he]; simp [lines, eol, crlf]
  have hgo : ∀ p, (readHeader cb st (g.line ++ crlf ++ p)).res = .headerDuplicate := by
    intro p
    obtain ⟨k, u1, u2, u3⟩ := line_taken (line_ne hgg) (line_cr hgg) p
    rw [readHeader_eq cb st _ ((g.line ++ crlf ++ p).length + 1) (by omega), headerLoop]
    have hp : crlf.isPrefixOf (g.line ++ crlf ++ p) = false := by
      have h1 := line_ne hgg
      have h2 := line_cr hgg
      cases hl : g.line with
      | nil => exact absurd hl h1
      | cons x l =>
        rw [hl] at h2
        have : x ≠ 13 := fun e => h2 (by simp [e])
        simp [crlf, List.isPrefixOf, this.symm]
    rw [if_neg (by rw [hp]; decide), u1]
    simp only [u2, hline, ne_eq, reduceCtorEq, not_false_eq_true, if_true]
  rw [read, if_neg (by simp [head_ne]), if_neg (by decide)]
  have hres : (steps cb uriOk false init (head ws s fs ++ body)).res = .headerDuplicate := by
    rw [steps_unknown rfl, e, space_skip h.space (c := c0) (by rw [hc0]; rfl) hsp0, List.drop_left, if_neg (by rw [hc0]; simp), steps_start rfl]
    simp only [Bool.false_eq_true, if_false]
    rw [read_start hcb h.start h.startLen, andThen_go rfl rfl, steps_header rfl]
    show (((readHeader cb (begun s) _).andThen (tail cb)).pre _).res = _
    rw [pre_res, hr, Out.andThen_pre, pre_res]
    have := hgo (lines c ++ (crlf ++ body))
    rw [andThen_stop (.inl (by rw [this]; simp)), this]
  simp only [hres, verdict]
  simp

end

/-! ### Cases -/

/-- `Host: b, c`. -/
def fHost : Field := ⟨[72, 111, 115, 116], [[98], [99]]⟩
/-- `Content-Length: 3`. -/
def fLength : Field := ⟨[67, 111, 110, 116, 101, 110, 116, 45, 76, 101, 110, 103, 116, 104], [[51]]⟩
/-- `Transfer-Encoding: Chunked`. -/
def fCoding : Field := ⟨[84, 114, 97, 110, 115, 102, 101, 114, 45, 69, 110, 99, 111, 100, 105, 110, 103], [[67, 104, 117, 110, 107, 101, 100]]⟩
/-- `PUT /a HTTP/1.1`. -/
def put : Start := .request .put [47, 97] .v11
/-- `HTTP/1.1 200 OK`. -/
def ok200 : Start := .response .v11 [50, 48, 48] [79, 75]

theorem outer_one {c : UInt8} (h : isSpace c = false) : NoOuter [c] :=
  ⟨fun x t e => by cases e; exact h, fun x t e => by
    have := congrArg List.length e
    simp at this
    subst this
    cases e; exact h⟩

theorem fHost_good : fHost.Good := by
  refine ⟨by decide, by decide, by decide, ?_, by decide, by decide⟩
  intro p hp
  simp only [fHost, List.mem_cons, List.not_mem_nil, or_false] at hp
  rcases hp with rfl | rfl
  · exact ⟨by decide, outer_one (by decide)⟩
  · exact ⟨by decide, outer_one (by decide)⟩

theorem fLength_good : fLength.Good := by
  refine ⟨by decide, by decide, by decide, ?_, by decide, by decide⟩
  intro p hp
  simp only [fLength, List.mem_cons, List.not_mem_nil, or_false] at hp
  subst hp
  exact ⟨by decide, outer_one (by decide)⟩

theorem fCoding_good : fCoding.Good := by
  refine ⟨by decide, by decide, by decide, ?_, by decide, by decide⟩
  intro p hp
  simp only [fCoding, List.mem_cons, List.not_mem_nil, or_false] at hp
  subst hp
  refine ⟨by decide, fun c t e => by cases e; decide, fun c t e => ?_⟩
  have := congrArg List.getLast? e
  simp at this
  subst this; decide

theorem fHost_inert : fHost.Inert := ⟨by decide, by decide, fun h => absurd h (by decide)⟩
theorem fLength_length : fLength.Length 3 := ⟨by decide, ⟨[51], rfl, ⟨by decide, by decide, by decide⟩⟩, by decide⟩
theorem fCoding_coding : fCoding.Coding := ⟨by decide, _, rfl, by decide⟩

/-- The hypotheses of `read_sized` hold for a request with two fields. -/
example : Head (fun _ => true) [13, 10] put 0 [fHost, fLength] ∧ Sized [97, 98, 99].length [fHost, fLength] :=
  ⟨⟨by decide, ⟨by decide, by decide, rfl⟩, by decide, by simp [fHost_good, fLength_good], by decide⟩,
   [fHost], fLength, [], rfl, fLength_length, by simpa [Plain] using fHost_inert, by simp [Plain]⟩

/-- The hypotheses of `read_coded` hold for a response with a length in front of the coding, a chunk of three bytes with an
extension `x=y`, a last chunk `00` and a trailer field. -/
example : Head (fun _ => true) [] ok200 200 [fLength, fCoding] ∧ Coded [fLength, fCoding] ∧ (⟨⟨[51], [⟨[120], some [121]⟩]⟩, [97, 13, 10]⟩ : Chunk).Good ∧ (⟨[48, 48], []⟩ : Size).Good 0 :=
  ⟨⟨by decide, ⟨⟨by decide, by decide, by decide⟩, by decide, by decide⟩, by decide, by simp [fCoding_good, fLength_good], by decide⟩,
   ⟨[fLength], fCoding, [], rfl, fCoding_coding, .inr (.inl ⟨⟨3, [], fLength, [], rfl, fLength_length, by simp [Plain], by simp [Plain]⟩, by simp [Plain]⟩)⟩,
   ⟨by decide, ⟨⟨by decide, by decide, by decide⟩, by
      intro x hx
      simp only [List.mem_singleton] at hx
      subst hx
      exact ⟨by decide, by decide, fun v hv => by cases hv; decide⟩, by decide, by decide⟩⟩,
   ⟨⟨by decide, by decide, by decide⟩, by simp, by decide, by decide⟩⟩

/-- The hypotheses of `read_plain_request` and `read_plain_response`. -/
example : Head (fun _ => true) [] put 0 [fHost] ∧ put.isRequest ∧ Head (fun _ => true) [] ok200 200 [fHost] ∧ ¬ ok200.isRequest ∧ Plain [fHost] :=
  ⟨⟨by decide, ⟨by decide, by decide, rfl⟩, by decide, by simp [fHost_good], by decide⟩, trivial,
   ⟨by decide, ⟨⟨by decide, by decide, by decide⟩, by decide, by decide⟩, by decide, by simp [fHost_good], by decide⟩, id, by simpa [Plain] using fHost_inert⟩

/-- The hypotheses of `two_lengths`. -/
example : Head (fun _ => true) [] put 0 ([] ++ fLength :: [fHost] ++ fLength :: []) ∧ Plain [] ∧ Plain [fHost] ∧ fLength.Length 3 :=
  ⟨⟨by decide, ⟨by decide, by decide, rfl⟩, by decide, by simp [fHost_good, fLength_good], by decide⟩, by simp [Plain], by simpa [Plain] using fHost_inert, fLength_length⟩

/-! ### What is also accepted -/

/-- `PUT / HTTP/1.1` with `Transfer-Encoding: chunked`. -/
def codedHead : List UInt8 := [80, 85, 84, 32, 47, 32, 72, 84, 84, 80, 47, 49, 46, 49, 13, 10, 84, 114, 97, 110, 115, 102, 101, 114, 45, 69, 110, 99, 111, 100, 105, 110, 103, 58, 32, 99, 104, 117, 110, 107, 101, 100, 13, 10, 13, 10]

/-- The converse of C85 fails.  Accepted, besides valid messages, are: a chunk size `+3`; a length `+3abc`; a coding `chunkedfoo`;
a version `HTTP/HTTP/1.1`; a status code `4294967496x`, which becomes 200.  A chunk size `0x3`, of three bytes for a function that reads hexadecimal
numbers, is taken for the last chunk with an extension `3`. -/
theorem lenient_fails :
    (read allOk (fun _ => true) false init (codedHead ++ [43, 51, 13, 10, 97, 98, 99, 13, 10, 48, 13, 10, 13, 10])).1 = .success ∧
    (read allOk (fun _ => true) false init [80, 85, 84, 32, 47, 32, 72, 84, 84, 80, 47, 49, 46, 49, 13, 10, 67, 111, 110, 116, 101, 110, 116, 45, 76, 101, 110, 103, 116, 104, 58, 32, 43, 51, 97, 98, 99, 13, 10, 13, 10, 97, 98, 99]).1 = .success ∧
    (read allOk (fun _ => true) false init [80, 85, 84, 32, 47, 32, 72, 84, 84, 80, 47, 49, 46, 49, 13, 10, 84, 114, 97, 110, 115, 102, 101, 114, 45, 69, 110, 99, 111, 100, 105, 110, 103, 58, 32, 99, 104, 117, 110, 107, 101, 100, 102, 111, 111, 13, 10, 13, 10, 48, 13, 10, 13, 10]).1 = .success ∧
    (read allOk (fun _ => true) false init [80, 85, 84, 32, 47, 32, 72, 84, 84, 80, 47, 72, 84, 84, 80, 47, 49, 46, 49, 13, 10, 13, 10]).1 = .success ∧
    Ev.response .v11 200 (some [79, 75]) ∈ (read allOk (fun _ => true) false init [72, 84, 84, 80, 47, 49, 46, 49, 32, 52, 50, 57, 52, 57, 54, 55, 52, 57, 54, 120, 32, 79, 75, 13, 10, 13, 10]).2.2.2 ∧
    Ev.chunkFinished ∈ (read allOk (fun _ => true) false init (codedHead ++ [48, 120, 51, 13, 10, 97, 98, 99, 13, 10, 48, 13, 10, 13, 10])).2.2.2 := by
  decide +kernel

/-- A chunk size, or a status code, of white space makes the reader read behind the bytes it has. -/
theorem blank_number_fails :
    (read allOk (fun _ => true) false init (codedHead ++ [32, 13, 10, 97, 98, 99, 13, 10, 48, 13, 10, 13, 10])).1 = .error .ub ∧
    (read allOk (fun _ => true) false init [72, 84, 84, 80, 47, 49, 46, 49, 32, 9, 32, 79, 75, 13, 10, 13, 10]).1 = .error .ub := by
  decide +kernel

/-- The callback for the end of a chunk has another number than the one for its data. -/
theorem chunk_number_fails : (read allOk (fun _ => true) false init (codedHead ++ [49, 13, 10, 97, 13, 10, 48, 13, 10, 13, 10])).2.2.2.drop 4 =
    [.chunkData [97] 0, .chunkDataDone 1, .chunkFinished, .trailerDone] := by
  decide +kernel

end Verif.Http.Frame
