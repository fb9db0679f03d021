import Verif.Http.FrameLemmas
/- Helper lemmas for C85: the parts of a message. -/
namespace Verif.Http.Frame
open Verif.Chr (isSpace toLower)
open Verif.Str (NoOuter join Alike Same)
open Verif.Num (value digitVal digit)
open Verif.Parser.Scan (untilLen split whitespace First Sections)

theorem call_ok {cb : Cb} (hcb : ∀ e, cb e = none) (e : Ev) : call cb e = .ok := by rw [call, hcb]

theorem takes {cb : Cb} (hcb : ∀ e, cb e = none) : Takes cb := ⟨fun _ => hcb _, fun _ _ => hcb _⟩

/-! ### The header -/

/-- Reading fields takes the reader from one state to another. -/
def Run (cb : Cb) (st : St) (fs : List Field) (st' : St) : Prop := ∀ p, readHeader cb st (lines fs ++ p) = (readHeader cb st' p).pre (headerEvs fs)

theorem Run.append {cb : Cb} {st st1 st2 : St} {a b : List Field} (h1 : Run cb st a st1) (h2 : Run cb st1 b st2) : Run cb st (a ++ b) st2 := by
  intro p
  have e : lines (a ++ b) ++ p = lines a ++ (lines b ++ p) := by simp [lines]
  rw [e, h1, h2, Out.pre_pre]
  congr 1
  simp [headerEvs]

theorem size_append (a b : List Field) : size (a ++ b) = size a + size b := by simp [size]

theorem run_inert {cb : Cb} (hcb : ∀ e, cb e = none) {fs : List Field} (hg : ∀ f ∈ fs, f.Good) (hi : Plain fs) {st : St} (hs : st.step = .header)
    (hl : st.headerLen + size fs ≤ 8192) : Run cb st fs { st with headerLen := st.headerLen + size fs } := fun p =>
  header_fields hcb p fs st (fun f hf => ⟨hg f hf, hi f hf⟩) hs hl

theorem run_one {cb : Cb} (hcb : ∀ e, cb e = none) {f : Field} (hg : f.Good) {v : List UInt8} (hv : f.parts = [v]) {st st' : St} (hs : st.step = .header)
    (hl : st.headerLen + f.line.length ≤ 8192) (h : validate { st with headerLen := st.headerLen + f.line.length } f.name v = (.ok, st')) : Run cb st [f] st' := by
  intro p
  have ht : f.text = v := by rw [Field.text, hv]; rfl
  have hvals : f.values = [v] := by unfold Field.values; split <;> simp [ht, hv]
  have h1 : headerLine cb st f.line = (.ok, st', [.headerFull f.name (some f.text), .header f.name (some v)]) := by
    rw [headerLine_eq hg cb st hl, headerKv_eq hg cb _ (name_len hl), hvals]
    have hsp := values_spec hg v (by rw [hvals]; simp)
    have hs' : ({ st with headerLen := st.headerLen + f.line.length } : St).step = .header := hs
    generalize ({ st with headerLen := st.headerLen + f.line.length } : St) = sx at h hs' ⊢
    have hp : process cb sx f.name (some v) = (.ok, st', [.header f.name (some v)]) := by
      unfold process
      simp only [hs', Option.getD_some, h, ne_eq, not_true_eq_false, if_false, call_ok hcb]
    simp only [valueLoop, hsp.2, if_neg hsp.1, hp, ne_eq, not_true_eq_false, if_false, fullEv, hs']
    rfl
  rw [lines_cons, List.append_assoc, header_one (line_ne hg) (line_cr hg) h1]
  simp [headerEvs, hvals, lines]

theorem is_ne {a x y : List UInt8} (h : Is a x) (hn : x ≠ y) : ¬ Is a y := fun h' => hn (h.symm.trans h')

theorem eq_no {a lit low : List UInt8} (ha : a.length < Buf.W) (hl : lit.length < Buf.W) (h : lit.map toLower = low) (hn : ¬ Is a low) : Str.eq true a lit = false := by
  rw [Bool.eq_false_iff]; exact fun hh => hn ((eq_is ha hl h).1 hh)

theorem length_validate {f : Field} (ha : f.name.length < Buf.W) {n : Nat} {d : List UInt8} (hi : Is f.name nLength) (hd : Digits 10 d n) (hn : n < 2 ^ 63) (st : St) (hh : st.haveLen = false) :
    validate st f.name d = (.ok, if st.format = .chunked then { st with haveLen := false, bodyLen := 0 }
      else { st with format := if n = 0 then .none else st.format, haveLen := true, bodyLen := n }) := by
  have h1 : Str.eq true f.name sContentLength = true := (eq_is ha (by decide) (by decide)).2 hi
  have h2 : Str.eq true f.name sTransferEncoding = false := eq_no ha (by decide) (low := nEncoding) (by decide) (is_ne hi (by decide))
  have h3 : Str.eq true f.name sContentType = false := eq_no ha (by decide) (low := nType) (by decide) (is_ne hi (by decide))
  have h4 : validateLength st d = (.ok, if st.format = .chunked then { st with haveLen := false, bodyLen := 0 }
      else { st with format := if n = 0 then .none else st.format, haveLen := true, bodyLen := n }) := by
    unfold validateLength
    rw [if_neg (by simp [hh])]
    split
    · rfl
    · rw [int64_digits (by omega) hd hn [0]]
      simp only
      rw [if_neg (by omega)]
      simp only [Int.natCast_eq_zero, Int.toNat_natCast]
  unfold validate
  simp only [h1, h2, h3, h4, if_true, Bool.false_eq_true, false_and, if_false, ne_eq, not_true_eq_false]

theorem coding_validate {f : Field} (ha : f.name.length < Buf.W) {v : List UInt8} (hi : Is f.name nEncoding) (hv : Is v vChunked) (st : St) (hh : st.format ≠ .chunked) :
    validate st f.name v = (.ok, { st with haveLen := false, bodyLen := if st.haveLen then 0 else st.bodyLen, format := .chunked }) := by
  have h1 : Str.eq true f.name sContentLength = false := eq_no ha (by decide) (low := nLength) (by decide) (is_ne hi (by decide))
  have h2 : Str.eq true f.name sTransferEncoding = true := (eq_is ha (by decide) (by decide)).2 hi
  have h3 : Str.eq true f.name sContentType = false := eq_no ha (by decide) (low := nType) (by decide) (is_ne hi (by decide))
  have h5 : Str.eqStart true v sChunked = true := by
    rw [Str.eqStart_iff]
    exact ⟨v, [], by simp, (alike_iff _ _).2 (hv.trans (by decide))⟩
  unfold validate
  simp only [h1, h2, h3, h5, Bool.false_eq_true, if_false, ne_eq, not_true_eq_false, true_and, if_true]
  unfold validateEncoding
  rw [if_neg hh]
  simp only [ne_eq, not_true_eq_false, if_false]

theorem run_sized {cb : Cb} (hcb : ∀ e, cb e = none) {n : Nat} {fs : List Field} (hg : ∀ f ∈ fs, f.Good) (hi : Sized n fs) {st : St} (hs : st.step = .header)
    (hh : st.haveLen = false) (hl : st.headerLen + size fs ≤ 8192) :
    Run cb st fs (if st.format = .chunked then { st with haveLen := false, bodyLen := 0, headerLen := st.headerLen + size fs }
      else { st with format := if n = 0 then .none else st.format, haveLen := true, bodyLen := n, headerLen := st.headerLen + size fs }) := by
  obtain ⟨a, f, b, rfl, ⟨hf, ⟨d, hd1, hd2⟩, hn⟩, ha, hb⟩ := hi
  have e : a ++ f :: b = a ++ ([f] ++ b) := rfl
  rw [e] at hl hg ⊢
  have hsz : size (a ++ ([f] ++ b)) = size a + f.line.length + size b := by simp [size]; omega
  rw [hsz] at hl ⊢
  have hgf : f.Good := hg f (by simp)
  refine Run.append (run_inert hcb (fun x hx => hg x (by simp [hx])) ha hs (by omega)) (Run.append (run_one hcb hgf hd1 hs (by simp only; omega)
    (length_validate (name_len (n := 0) (by omega)) hf hd2 hn _ hh)) ?_)
  by_cases hc : st.format = .chunked
  · simp only [hc, if_true]
    have := run_inert hcb (fs := b) (fun x hx => hg x (by simp [hx])) hb (st := { st with haveLen := false, bodyLen := 0, headerLen := st.headerLen + size a + f.line.length }) hs
      (by simp only; omega)
    simpa only [hc, Nat.add_assoc] using this
  · simp only [hc, if_false]
    have := run_inert hcb (fs := b) (fun x hx => hg x (by simp [hx])) hb
      (st := { st with format := if n = 0 then .none else st.format, haveLen := true, bodyLen := n, headerLen := st.headerLen + size a + f.line.length }) hs
      (by simp only; omega)
    simpa only [Nat.add_assoc] using this

theorem run_coding {cb : Cb} (hcb : ∀ e, cb e = none) {f : Field} (hg : f.Good) (hc : f.Coding) {st : St} (hs : st.step = .header) (hh : st.format ≠ .chunked)
    (hb : st.haveLen = false → st.bodyLen = 0) (hl : st.headerLen + f.line.length ≤ 8192) :
    Run cb st [f] { st with haveLen := false, bodyLen := 0, format := .chunked, headerLen := st.headerLen + f.line.length } := by
  obtain ⟨hi, v, hv1, hv2⟩ := hc
  refine run_one hcb hg hv1 hs hl ?_
  rw [coding_validate (name_len hl) hi hv2 { st with headerLen := st.headerLen + f.line.length } hh]
  simp only
  cases hx : st.haveLen with
  | true => simp
  | false => simp [hb hx]

theorem run_coded {cb : Cb} (hcb : ∀ e, cb e = none) {fs : List Field} (hg : ∀ f ∈ fs, f.Good) (hi : Coded fs) {st : St} (hs : st.step = .header)
    (hh : st.haveLen = false) (hb : st.bodyLen = 0) (hf : st.format ≠ .chunked) (hl : st.headerLen + size fs ≤ 8192) :
    Run cb st fs { st with haveLen := false, bodyLen := 0, format := .chunked, headerLen := st.headerLen + size fs } := by
  obtain ⟨a, f, b, rfl, hc, hor⟩ := hi
  have e : a ++ f :: b = a ++ ([f] ++ b) := rfl
  rw [e] at hl hg ⊢
  have hsz : size (a ++ ([f] ++ b)) = size a + f.line.length + size b := by simp [size]; omega
  rw [hsz] at hl ⊢
  have hgf : f.Good := hg f (by simp)
  have hga : ∀ x ∈ a, x.Good := fun x hx => hg x (by simp [hx])
  have hgb : ∀ x ∈ b, x.Good := fun x hx => hg x (by simp [hx])
  rcases hor with ⟨ha, hb'⟩ | ⟨⟨n, ha⟩, hb'⟩ | ⟨ha, n, hb'⟩
  · have h1 := run_inert hcb hga ha hs (by omega)
    have h2 := run_coding hcb hgf hc (st := { st with headerLen := st.headerLen + size a }) hs hf (fun _ => hb) (by simp only; omega)
    have h3 := run_inert hcb hgb hb' (st := { st with haveLen := false, bodyLen := 0, format := .chunked, headerLen := st.headerLen + size a + f.line.length }) hs (by simp only; omega)
    have := h1.append (h2.append h3)
    simpa only [Nat.add_assoc] using this
  · have h1 := run_sized hcb hga ha hs hh (by omega)
    rw [if_neg hf] at h1
    have h2 := run_coding hcb hgf hc (st := { st with format := if n = 0 then .none else st.format, haveLen := true, bodyLen := n, headerLen := st.headerLen + size a }) hs
      (by simp only; split; simp; exact hf) (by simp) (by simp only; omega)
    have h3 := run_inert hcb hgb hb' (st := { st with haveLen := false, bodyLen := 0, format := .chunked, headerLen := st.headerLen + size a + f.line.length }) hs (by simp only; omega)
    have := h1.append (h2.append h3)
    simpa only [Nat.add_assoc] using this
  · have h1 := run_inert hcb hga ha hs (by omega)
    have h2 := run_coding hcb hgf hc (st := { st with headerLen := st.headerLen + size a }) hs hf (fun _ => hb) (by simp only; omega)
    have h3 := run_sized hcb hgb hb' (st := { st with haveLen := false, bodyLen := 0, format := .chunked, headerLen := st.headerLen + size a + f.line.length }) hs rfl (by simp only; omega)
    rw [if_pos rfl] at h3
    have := h1.append (h2.append h3)
    simpa only [Nat.add_assoc] using this

/-! ### The first line -/

theorem version_read (v : Version) : readVersion (versionText v) = (.ok, some v) := by cases v <;> decide
theorem method_read (m : Method) : methodFromStr ((strdup (methodName m)).getD []) = some m := by cases m <;> decide
theorem method_http (m : Method) : sHttp.isPrefixOf (methodName m) = false := by cases m <;> decide
theorem version_http (v : Version) : sHttp.isPrefixOf (versionText v) = true := by cases v <;> decide
theorem method_space (m : Method) : (32 : UInt8) ∉ methodName m ∧ (13 : UInt8) ∉ methodName m := by cases m <;> decide
theorem version_space (v : Version) : (32 : UInt8) ∉ versionText v ∧ (13 : UInt8) ∉ versionText v := by cases v <;> decide
theorem method_cons (m : Method) : ∃ c r, methodName m = c :: r ∧ isSpace c = false := by cases m <;> exact ⟨_, _, rfl, by decide⟩
theorem version_cons (v : Version) : ∃ c r, versionText v = c :: r ∧ isSpace c = false := by cases v <;> exact ⟨_, _, rfl, by decide⟩

/-- The state after the first line. -/
def started (s : Start) (st : St) : St :=
  match s with
  | .request m _ _ => { st with kind := .request, noBody := if m = .get ∨ m = .head ∨ m = .delete ∨ m = .trace then true else st.noBody }
  | .response .. => { st with kind := .response }

theorem split_three {a b c : List UInt8} (ha : (32 : UInt8) ∉ a) (hb : (32 : UInt8) ∉ b) : split (a ++ [32] ++ b ++ [32] ++ c) [32] 3 true false = some (some [a, b, c]) := by
  obtain ⟨xs, hx1, hx2⟩ := Parser.Scan.split_correct (a ++ [32] ++ b ++ [32] ++ c) [32] 3 true false (by simp) (by simp)
  have hxs : xs = [a, b, c] := by
    apply hx1.unique
    have e : a ++ [32] ++ b ++ [32] ++ c = a ++ [32] ++ (b ++ [32] ++ c) := by simp
    rw [e]
    exact sections_two ha 3 (by simp) 0 (by simp) (sections_two hb 3 (by simp) 1 (by simp) (.last _ _ (.inr (by simp))))
  rw [hx2, hxs]
  simp

theorem start_line {cb : Cb} (hcb : ∀ e, cb e = none) {uriOk : List UInt8 → Bool} {s : Start} {n : Nat} (h : s.Good uriOk n) (hl : s.line.length ≤ 6144) (st : St) :
    startLine cb uriOk st s.line = (.ok, started s st, [s.ev n]) := by
  unfold startLine
  rw [if_neg (by simp only [maxStart]; omega)]
  cases s with
  | request m t v =>
    obtain ⟨h1, h2, h3⟩ := h
    rw [Start.line, split_three (method_space m).1 (fun hc => (h2 32 hc).2.2 rfl)]
    simp only [List.length_cons, List.length_nil, ne_eq, not_true_eq_false, if_false, List.headD_cons, method_http, Bool.false_eq_true, startRequest, method_read,
      strdup_eq h1 (fun c hc => (h2 c hc).1), h3, reduceCtorEq, version_read, call_ok hcb]
    simp only [started, Start.ev]
    split <;> rfl
  | response v c r =>
    obtain ⟨h1, h2, h3⟩ := h
    rw [Start.line, split_three (version_space v).1 (fun hc => (digit_plain (by omega) (h1.digit 32 hc)).2.2.2.2.2.2.2.2 rfl)]
    have hd := uint64_digits (by omega) h1 (by omega) []
    rw [List.append_nil] at hd
    simp only [List.length_cons, List.length_nil, ne_eq, not_true_eq_false, if_false, List.headD_cons, version_http, if_true, startResponse, version_read,
      if_neg h1.ne, hd, call_ok hcb]
    have e : n % 4294967296 = n := Nat.mod_eq_of_lt h2
    have hr : strdup r = if r = [] then none else some r := by
      by_cases hr : r = []
      · simp [hr, strdup]
      · rw [strdup_eq hr (fun c hc => (h3 c hc).1), if_neg hr]
    rw [e, hr]
    rfl

theorem start_cr {uriOk : List UInt8 → Bool} {s : Start} {n : Nat} (h : s.Good uriOk n) : (13 : UInt8) ∉ s.line ∧ ∃ c r, s.line = c :: r ∧ isSpace c = false := by
  cases s with
  | request m t v =>
    obtain ⟨h1, h2, h3⟩ := h
    refine ⟨?_, ?_⟩
    · simp only [Start.line, List.mem_append, List.mem_singleton, not_or]
      exact ⟨⟨⟨⟨(method_space m).2, by decide⟩, fun hc => (h2 13 hc).2.1 rfl⟩, by decide⟩, (version_space v).2⟩
    · obtain ⟨c, r, e, hs⟩ := method_cons m
      exact ⟨c, _, by rw [Start.line, e]; rfl, hs⟩
  | response v c r =>
    obtain ⟨h1, h2, h3⟩ := h
    refine ⟨?_, ?_⟩
    · simp only [Start.line, List.mem_append, List.mem_singleton, not_or]
      exact ⟨⟨⟨⟨(version_space v).2, by decide⟩, fun hc => (digit_plain (by omega) (h1.digit 13 hc)).2.2.2.2.2.1 rfl⟩, by decide⟩, fun hc => (h3 13 hc).2 rfl⟩
    · obtain ⟨c, r, e, hs⟩ := version_cons v
      exact ⟨c, _, by rw [Start.line, e]; rfl, hs⟩

theorem line_taken {line : List UInt8} (hne : line ≠ []) (h : (13 : UInt8) ∉ line) (p : List UInt8) : ∃ n, untilLen (line ++ crlf ++ p) crlf false = some (n + 1) ∧
    (line ++ crlf ++ p).take (n + 1) = line ∧ (line ++ crlf ++ p).drop (n + 3) = p := by
  have hu := until_first (first_line h p)
  obtain ⟨n, hn⟩ : ∃ n, line.length = n + 1 := ⟨line.length - 1, by cases line; exact absurd rfl hne; simp⟩
  rw [hn] at hu
  refine ⟨n, hu, ?_, ?_⟩
  · rw [← hn, List.append_assoc, List.take_left]
  · have : n + 3 = (line ++ crlf).length := by simp [crlf]; omega
    rw [this, List.drop_left]

theorem read_start {cb : Cb} (hcb : ∀ e, cb e = none) {uriOk : List UInt8 → Bool} {s : Start} {n : Nat} (h : s.Good uriOk n) (hl : s.line.length ≤ 6144) (st : St) (p : List UInt8) :
    readStartLine cb uriOk st (s.line ++ crlf ++ p) = ⟨.ok, true, started s st, p, [s.ev n]⟩ := by
  obtain ⟨hcr, c, r, hc, _⟩ := start_cr h
  obtain ⟨k, h1, h2, h3⟩ := line_taken (by rw [hc]; simp) hcr p
  rw [readStartLine, if_neg (by rw [hc]; simp), h1]
  simp only [h2, h3, start_line hcb h hl]

theorem space_skip {ws p : List UInt8} (h : ∀ c ∈ ws, isSpace c = true) {c : UInt8} {r : List UInt8} (hp : p = c :: r) (hc : isSpace c = false) :
    whitespace false false (ws ++ p) = ws.length := by
  induction ws with
  | nil => simp [hp, whitespace, hc]
  | cons x ws ih =>
    rw [List.cons_append, whitespace, if_neg (by simp), if_neg (by simp [h x (by simp)]), ih fun y hy => h y (List.mem_cons_of_mem _ hy)]
    rfl

/-- The state in which the header begins. -/
def begun (s : Start) : St := { started s { init with step := .startLine } with step := .header }

theorem read_head {cb : Cb} (hcb : ∀ e, cb e = none) {uriOk : List UInt8 → Bool} {ws : List UInt8} {s : Start} {n : Nat} {fs : List Field} (h : Head uriOk ws s n fs) {st : St}
    (hr : Run cb (begun s) fs st) (p : List UInt8) : steps cb uriOk false init (head ws s fs ++ p) = (tail cb st p).pre (s.ev n :: headerEvs fs) := by
  obtain ⟨_, c, r, hc, hsp⟩ := start_cr h.start
  have e : head ws s fs ++ p = ws ++ (s.line ++ crlf ++ (lines fs ++ (crlf ++ p))) := by simp [head, eol, crlf]
  have hw : whitespace false false (head ws s fs ++ p) = ws.length := by
    rw [e]
    exact space_skip h.space (c := c) (by rw [hc]; rfl) hsp
  rw [steps_unknown rfl, hw, e, List.drop_left, if_neg (by rw [hc]; simp), steps_start rfl]
  simp only [Bool.false_eq_true, if_false]
  rw [read_start hcb h.start h.startLen, andThen_go rfl rfl, steps_header rfl]
  show ((readHeader cb (begun s) (lines fs ++ (crlf ++ p))).andThen (tail cb)).pre [s.ev n] = _
  rw [hr, header_end, Out.andThen_pre, andThen_go rfl rfl, Out.pre_pre, Out.pre_pre]
  simp

/-! ### Chunks -/

theorem byte_of_mem_join {xs : List Ext} (h : ∀ x ∈ xs, x.Good) {c : UInt8} (hc : c ∈ join [59] (xs.map Ext.text)) : c ≠ 0 ∧ c ≠ 13 := by
  rcases join_mem hc with hc | ⟨p, hp, hc⟩
  · simp only [List.mem_singleton] at hc
    subst hc; decide
  · obtain ⟨x, hx, rfl⟩ := List.mem_map.1 hp
    have hg := h x hx
    unfold Ext.text at hc
    split at hc
    · exact ⟨(hg.keyByte c hc).1, (hg.keyByte c hc).2.1⟩
    · rename_i v hv
      simp only [List.mem_append, List.mem_singleton] at hc
      rcases hc with (hc | rfl) | hc
      · exact ⟨(hg.keyByte c hc).1, (hg.keyByte c hc).2.1⟩
      · decide
      · exact ⟨(hg.valByte v hv c hc).1, (hg.valByte v hv c hc).2.1⟩

theorem ext_text {x : Ext} (h : x.Good) : (59 : UInt8) ∉ x.text ∧ x.text ≠ [] ∧ (0 : UInt8) ∉ x.text := by
  unfold Ext.text
  split
  · exact ⟨fun hc => (h.keyByte 59 hc).2.2.1 rfl, h.key, fun hc => (h.keyByte 0 hc).1 rfl⟩
  · rename_i v hv
    refine ⟨?_, by simp, ?_⟩
    · simp only [List.mem_append, List.mem_singleton, not_or]
      exact ⟨⟨fun hc => (h.keyByte 59 hc).2.2.1 rfl, by decide⟩, fun hc => (h.valByte v hv 59 hc).2.2.1 rfl⟩
    · simp only [List.mem_append, List.mem_singleton, not_or]
      exact ⟨⟨fun hc => (h.keyByte 0 hc).1 rfl, by decide⟩, fun hc => (h.valByte v hv 0 hc).1 rfl⟩

theorem ext_explode {x : Ext} (h : x.Good) : Str.explode 61 x.text = some (match x.val with | none => [x.key] | some v => [x.key, v]) := by
  have ht := ext_text h
  cases hv : x.val with
  | none =>
    have e : x.text = join [61] [x.key] := by simp [Ext.text, hv, join]
    rw [e]
    exact Str.explode_join 61 [x.key] (by simpa using fun hc => (h.keyByte 61 hc).2.2.2 rfl) (by rw [← e]; exact ht.2.2) (by rw [← e]; exact ht.2.1)
  | some v =>
    have e : x.text = join [61] [x.key, v] := by simp [Ext.text, hv, join]
    rw [e]
    exact Str.explode_join 61 [x.key, v] (by
      intro y hy
      simp only [List.mem_cons, List.not_mem_nil, or_false] at hy
      rcases hy with rfl | rfl
      · exact fun hc => (h.keyByte 61 hc).2.2.2 rfl
      · exact fun hc => (h.valByte _ hv 61 hc).2.2.2 rfl) (by rw [← e]; exact ht.2.2) (by rw [← e]; exact ht.2.1)

theorem ext_loop {cb : Cb} (hcb : ∀ e, cb e = none) (i : Nat) : ∀ xs : List Ext, (∀ x ∈ xs, x.Good) →
    extLoop cb i (xs.map Ext.text) = (.ok, xs.map fun x => .chunkExt x.key x.val i)
  | [], _ => rfl
  | x :: xs, h => by
    have ih := ext_loop hcb i xs fun y hy => h y (List.mem_cons_of_mem _ hy)
    rw [List.map_cons, extLoop, ext_explode (h x (by simp))]
    cases hv : x.val with
    | none => simp only [call_ok hcb, ne_eq, not_true_eq_false, if_false, ih, List.map_cons, hv]
    | some v => simp only [call_ok hcb, ne_eq, not_true_eq_false, if_false, ih, List.map_cons, hv]

theorem chunk_exts {cb : Cb} (hcb : ∀ e, cb e = none) (i : Nat) {xs : List Ext} (hne : xs ≠ []) (h : ∀ x ∈ xs, x.Good) :
    chunkExts cb i (join [59] (xs.map Ext.text)) = (.ok, (xs.map fun x => .chunkExt x.key x.val i) ++ [.chunkExtDone i]) := by
  have hj : join [59] (xs.map Ext.text) ≠ [] := join_ne (by simpa using hne) (by
    intro p hp
    obtain ⟨x, hx, rfl⟩ := List.mem_map.1 hp
    exact (ext_text (h x hx)).2.1)
  unfold chunkExts
  rw [strdup_eq hj (fun c hc => (byte_of_mem_join h hc).1), Option.getD_some, Str.explode_join 59 _ (by
    intro p hp
    obtain ⟨x, hx, rfl⟩ := List.mem_map.1 hp
    exact (ext_text (h x hx)).1) (fun hc => (byte_of_mem_join h hc).1 rfl) hj]
  obtain ⟨x, r, e⟩ : ∃ x r, xs = x :: r := by cases xs; exact absurd rfl hne; exact ⟨_, _, rfl⟩
  have hl := ext_loop hcb i xs h
  rw [e] at hl ⊢
  simp only [List.map_cons] at hl ⊢
  simp only [hl, ne_eq, not_true_eq_false, if_false, call_ok hcb]

theorem chunk_line {cb : Cb} (hcb : ∀ e, cb e = none) {s : Size} {n : Nat} (h : s.Good n) (st : St) :
    chunkLine cb st s.line = (.ok, { st with bodyLen := n, seen := 0 }, s.evs st.part) := by
  have hns : (59 : UInt8) ∉ s.digits := fun hc => (digit_plain (by omega) (h.digits.digit 59 hc)).2.2.2.2.2.2.2.1 rfl
  have hl0 : s.digits.length ≠ 0 := fun hh => h.digits.ne (List.length_eq_zero_iff.1 hh)
  unfold chunkLine
  rw [if_neg (by have := h.short; simp only [maxStart]; omega)]
  obtain ⟨k, hk1, hk2⟩ := Parser.Scan.until_correct s.line [59] false (by simp)
  rw [hk1]
  simp only
  by_cases hx : s.exts = []
  · have hline : s.line = s.digits := by simp [Size.line, hx]
    have hk : k = 0 := by
      rcases hk2 with ⟨j, ⟨⟨x, q, e, _⟩, _⟩, _⟩ | ⟨_, hk⟩
      · exfalso
        rw [hline] at e
        exact hns (by rw [e]; simp)
      · exact hk
    have hd := int64_digits (by omega) h.digits h.fits []
    rw [List.append_nil] at hd
    subst hk
    rw [hline]
    simp only [Nat.lt_irrefl, gt_iff_lt, if_false, hl0, hd]
    rw [if_neg (by omega)]
    simp [Size.evs, hx]
  · have hline : s.line = s.digits ++ [59] ++ join [59] (s.exts.map Ext.text) := by simp [Size.line, hx]
    have hk : k = s.digits.length := by
      rcases hk2 with ⟨j, ⟨⟨x, q, e, hj⟩, hmin⟩, hk⟩ | ⟨hno, _⟩
      · simp only [Bool.false_eq_true, if_false] at hk
        have h1 := hmin _ _ hline
        refine Nat.le_antisymm (by omega) (Nat.le_of_not_lt fun hlt => hns ?_)
        have hp1 : (x ++ [59]) <+: s.line := ⟨q, e.symm⟩
        have hp2 : s.digits <+: s.line := ⟨[59] ++ join [59] (s.exts.map Ext.text), by rw [hline]; simp⟩
        exact (List.prefix_of_prefix_length_le hp1 hp2 (by simp; omega)).subset (by simp)
      · exact absurd hline (hno _ _)
    have hd := int64_digits (by omega) h.digits h.fits ([59] ++ join [59] (s.exts.map Ext.text))
    rw [← List.append_assoc, ← hline] at hd
    subst hk
    rw [if_pos (show s.digits.length > 0 by omega), if_neg hl0, hd]
    simp only
    rw [if_neg (by omega), if_neg (by simp)]
    simp only [List.singleton_append, List.drop_succ_cons, List.drop_zero, chunk_exts hcb _ hx h.exts, Int.toNat_natCast, Size.evs, if_neg hx]

theorem size_cr {s : Size} {n : Nat} (h : s.Good n) : (13 : UInt8) ∉ s.line ∧ s.line ≠ [] := by
  have h1 : (13 : UInt8) ∉ s.digits := fun hc => (digit_plain (by omega) (h.digits.digit 13 hc)).2.2.2.2.2.1 rfl
  have h2 := h.digits.ne
  refine ⟨?_, by simp [Size.line, h2]⟩
  unfold Size.line
  split
  · simpa using h1
  · simp only [List.mem_append, List.mem_singleton, not_or]
    exact ⟨h1, by decide, fun hc => (byte_of_mem_join h.exts hc).2 rfl⟩

theorem chunk_start {cb : Cb} (hcb : ∀ e, cb e = none) {s : Size} {n : Nat} (h : s.Good n) (st : St) (p : List UInt8) :
    readChunkStart cb st (s.line ++ crlf ++ p) = ⟨.ok, true, { st with bodyLen := n, seen := 0 }, p, s.evs st.part⟩ := by
  obtain ⟨hcr, hne⟩ := size_cr h
  obtain ⟨k, h1, h2, h3⟩ := line_taken hne hcr p
  rw [readChunkStart, if_neg (by simp [hne]), h1]
  simp only [h2, h3, chunk_line hcb h, decide_true]

theorem chunk_one {cb : Cb} (hcb : ∀ e, cb e = none) {c : Chunk} (h : c.Good) {st : St} (hs : st.step = .chunkStart) (p : List UInt8) :
    ∃ st', chunked cb st (c.size.line ++ crlf ++ (c.data ++ crlf ++ p)) = (chunked cb st' p).pre (c.size.evs st.part ++ [.chunkData c.data st.part, .chunkDataDone (st.part + 1)]) ∧
      st'.step = .chunkStart ∧ st'.part = st.part + 1 := by
  have hd0 : c.data.length ≠ 0 := fun hh => h.data (List.length_eq_zero_iff.1 hh)
  refine ⟨{ st with bodyLen := c.data.length, seen := c.data.length, step := .chunkStart, part := st.part + 1 }, ?_, rfl, rfl⟩
  rw [chunked_start hs, chunk_start hcb h.size, andThen_go rfl rfl]
  simp only
  rw [chunked_data rfl, readChunkData_eq (takes hcb) _ _ hd0 (by simp [crlf]) c.data.length (by simp)]
  simp only
  have e : (c.data ++ crlf ++ p).drop c.data.length = crlf ++ p := by rw [List.append_assoc, List.drop_left]
  have e2 : (c.data ++ crlf ++ p).drop (c.data.length + 2) = p := by
    have : c.data.length + 2 = (c.data ++ crlf).length := by simp [crlf]
    rw [this, List.drop_left]
  have e3 : (c.data ++ crlf ++ p).take c.data.length = c.data := by rw [List.append_assoc, List.take_left]
  rw [e, e2, e3, if_pos (by simp [crlf]), if_pos (by simp [crlf, List.isPrefixOf]), andThen_go rfl rfl]
  simp only [afterData, if_neg hd0]
  rw [andThen_go (call_ok hcb _) rfl, Out.pre_pre, Out.pre_pre]
  simp only [emit, Nat.zero_add]
  congr 1
  simp

theorem chunks_cons (c : Chunk) (cs : List Chunk) (p : List UInt8) : chunks (c :: cs) ++ p = c.size.line ++ crlf ++ (c.data ++ crlf ++ (chunks cs ++ p)) := by
  simp [chunks, eol, crlf]

theorem chunk_list {cb : Cb} (hcb : ∀ e, cb e = none) (p : List UInt8) : ∀ (cs : List Chunk) (st : St), (∀ c ∈ cs, c.Good) → st.step = .chunkStart →
    ∃ st', chunked cb st (chunks cs ++ p) = (chunked cb st' p).pre (chunkEvs st.part cs) ∧ st'.step = .chunkStart ∧ st'.part = st.part + cs.length
  | [], st, _, hs => ⟨st, by simp [chunks, chunkEvs, Out.pre], hs, rfl⟩
  | c :: cs, st, h, hs => by
    obtain ⟨st1, h1, h2, h3⟩ := chunk_one hcb (h c (by simp)) hs (chunks cs ++ p)
    obtain ⟨st2, h4, h5, h6⟩ := chunk_list hcb p cs st1 (fun x hx => h x (List.mem_cons_of_mem _ hx)) h2
    refine ⟨st2, ?_, h5, by rw [h6, h3]; simp; omega⟩
    rw [chunks_cons, h1, h4, Out.pre_pre, h3]
    rfl

theorem chunk_last {cb : Cb} (hcb : ∀ e, cb e = none) {s : Size} (h : s.Good 0) {fs : List Field} (hg : ∀ f ∈ fs, f.Good) (hl : size fs ≤ 8192) {st : St} (hs : st.step = .chunkStart) (p : List UInt8) :
    ∃ st', chunked cb st (s.line ++ crlf ++ (lines fs ++ crlf ++ p)) = ⟨.ok, true, st', p, s.evs st.part ++ [.chunkFinished] ++ trailerEvs fs ++ [.trailerDone]⟩ ∧ st'.step = .done := by
  refine ⟨{ st with bodyLen := 0, seen := 0, step := .done, headerLen := 0 + size fs }, ?_, rfl⟩
  rw [chunked_start hs, chunk_start hcb h, andThen_go rfl rfl]
  simp only
  rw [chunked_data rfl, readChunkData_zero rfl, andThen_go rfl rfl]
  simp only [afterData, if_true]
  rw [andThen_go (call_ok hcb _) rfl]
  simp only [emit, readTrailer]
  rw [trailer_fields hcb p fs _ hg rfl (by simp only; omega), andThen_go rfl rfl]
  simp only [Out.pre, emit, call_ok hcb, List.nil_append, List.append_assoc]

end Verif.Http.Frame
