import Verif.Http.Stable
/- Helper lemmas for the HTTP reader: the steps of the reader put together. -/
namespace Verif.Http
open Verif.Parser.Scan

/-- The steps at which the reader can wait for data of a message that is not multipart. -/
def Waits : Step → Prop
  | .unknown | .startLine | .header | .body | .chunkStart | .chunkData | .trailer => True
  | _ => False

instance : DecidablePred Waits := fun s => by cases s <;> unfold Waits <;> infer_instance

/-- `K` is what remains to be done of the work `D`. -/
structure Cont (D K : St → List UInt8 → Out) (st : St) (a b : List UInt8) : Prop where
  final : ¬ Pending (K st a) → K st (a ++ b) = { K st a with rest := (K st a).rest ++ b }
  pending : Pending (K st a) → Sim (K st (a ++ b)) ((D (K st a).st ((K st a).rest ++ b)).pre (K st a).evs)
  waits : Pending (K st a) → Waits (K st a).st.step
  done : ¬ Pending (K st a) → (K st a).res = .ok → (K st a).st.step = .done
  suffix : (K st a).rest <:+ a

theorem pre_res (o : Out) (e : List Ev) : (o.pre e).res = o.res := rfl
theorem pre_st (o : Out) (e : List Ev) : (o.pre e).st = o.st := rfl
theorem pre_rest (o : Out) (e : List Ev) : (o.pre e).rest = o.rest := rfl
theorem pre_evs (o : Out) (e : List Ev) : (o.pre e).evs = e ++ o.evs := rfl
theorem pending_pre {o : Out} {e : List Ev} : Pending (o.pre e) ↔ Pending o := Iff.rfl

theorem Cont.pre {D K : St → List UInt8 → Out} {K' : St → List UInt8 → Out} {st st' : St} {a a' b evs} (h : Cont D K st a b)
    (hs : a <:+ a') (h1 : K' st' a' = (K st a).pre evs) (h2 : K' st' (a' ++ b) = (K st (a ++ b)).pre evs) : Cont D K' st' a' b := by
  refine ⟨fun hp => ?_, fun hp => ?_, fun hp => ?_, fun hp hr => ?_, by rw [h1]; exact h.suffix.trans hs⟩
  · rw [h1] at hp ⊢
    rw [h2, h.final hp]; rfl
  · rw [h1] at hp ⊢
    rw [h2, pre_st, pre_rest, pre_evs, ← Out.pre_pre]
    exact (h.pending hp).pre evs
  · rw [h1] at hp ⊢
    exact h.waits hp
  · rw [h1] at hp hr ⊢
    exact h.done hp hr

theorem Cont.of_final {D K : St → List UInt8 → Out} {st : St} {a b : List UInt8} (h : ¬ Pending (K st a))
    (h1 : K st (a ++ b) = { K st a with rest := (K st a).rest ++ b }) (h2 : (K st a).res = .ok → (K st a).st.step = .done)
    (h3 : (K st a).rest <:+ a) : Cont D K st a b :=
  ⟨fun _ => h1, fun hp => absurd hp h, fun hp => absurd hp h, fun _ => h2, h3⟩

theorem Cont.andThen {D F K : St → List UInt8 → Out} {st : St} {a b : List UInt8} (hF : Local F st a b)
    (hs : (F st a).rest <:+ a) (hD : Pending (F st a) → Waits (F st a).st.step ∧ ∀ p, D (F st a).st p = (F (F st a).st p).andThen K)
    (hK : (F st a).res = .ok → (F st a).full = true → Cont D K (F st a).st (F st a).rest b) :
    Cont D (fun st p => (F st p).andThen K) st a b := by
  by_cases hp : Pending (F st a)
  · have e : (F st a).andThen K = F st a := andThen_stop (.inr hp.2) K
    have h1 := hF.pending hp
    refine ⟨fun hq => ?_, fun _ => ?_, fun _ => ?_, fun hq => ?_, by simp only [e]; exact hs⟩
    · simp only [e] at hq; exact absurd hp hq
    · simp only [e]
      rw [(hD hp).2, ← Out.andThen_pre]
      exact h1.andThen K
    · simp only [e]; exact (hD hp).1
    · simp only [e] at hq; exact absurd hp hq
  · have h1 := hF.final hp
    by_cases hr : (F st a).res = .ok
    · have hf : (F st a).full = true := by
        cases hh : (F st a).full
        · exact absurd ⟨hr, hh⟩ hp
        · rfl
      refine (hK hr hf).pre (evs := (F st a).evs) hs (andThen_go hr hf K) ?_
      show (F st (a ++ b)).andThen K = _
      rw [h1]
      exact andThen_go (o := { F st a with rest := (F st a).rest ++ b }) hr hf K
    · have e : (F st a).andThen K = F st a := andThen_stop (.inl hr) K
      refine .of_final (by simp only [e]; exact hp) ?_ (by simp only [e]; exact fun h => absurd h hr) (by simp only [e]; exact hs)
      simp only [e]
      rw [h1]
      exact andThen_stop (o := { F st a with rest := (F st a).rest ++ b }) (.inl hr) K

theorem emit_local (cb : Cb) (e : Ev) (st : St) (a b : List UInt8) : Local (emit cb e) st a b :=
  ⟨fun _ => rfl, fun hp => absurd hp.2 (by simp [emit])⟩

/-- A callback and then `K`. -/
theorem Cont.emit {D K : St → List UInt8 → Out} (cb : Cb) (e : Ev) {st : St} {a b : List UInt8} (hK : Cont D K st a b) :
    Cont D (fun st p => (emit cb e st p).andThen K) st a b :=
  .andThen (emit_local cb e st a b) (List.suffix_refl _) (fun hp => absurd hp.2 (by simp [Http.emit])) (fun _ _ => hK)

theorem emit_done (D : St → List UInt8 → Out) (cb : Cb) (e : Ev) {st : St} (h : st.step = .done) (a b : List UInt8) : Cont D (emit cb e) st a b :=
  .of_final (fun hp => absurd hp.2 (by simp [Http.emit])) rfl (fun _ => h) (List.suffix_refl _)

/-! ### The step is kept -/

theorem validate_step (st : St) (k v : List UInt8) : (validate st k v).2.step = st.step := by
  have h1 : ∀ st v, (validateLength st v).2.step = st.step := by
    intro st v
    unfold validateLength
    split
    · rfl
    · split
      · rfl
      · split
        · rfl
        · split <;> rfl
        · rfl
  have h2 : ∀ st, (validateEncoding st).2.step = st.step := by intro st; unfold validateEncoding; split <;> rfl
  have h3 : ∀ st v, (validateType st v).2.step = st.step := by
    intro st v
    unfold validateType
    simp only
    split
    · rfl
    · have hi : ∀ c : Prop, [Decidable c] → (if c then { st with format := .multipart } else st : St).step = st.step := by
        intro c _; split <;> rfl
      split
      · exact hi _
      · split
        · exact hi _
        · split
          · exact hi _
          · simp only; exact hi _
  unfold validate
  simp only
  have e1 : (if Str.eq true k sContentLength = true then validateLength st v else (.ok, st)).2.step = st.step := by
    split
    · exact h1 _ _
    · rfl
  generalize (if Str.eq true k sContentLength = true then validateLength st v else (Res.ok, st)) = r1 at *
  split
  · exact e1
  · have e2 : (if Str.eq true k sTransferEncoding = true ∧ Str.eqStart true v sChunked = true then validateEncoding r1.2 else (Res.ok, r1.2)).2.step = st.step := by
      split
      · rw [h2]; exact e1
      · exact e1
    generalize (if Str.eq true k sTransferEncoding = true ∧ Str.eqStart true v sChunked = true then validateEncoding r1.2 else (Res.ok, r1.2)) = r2 at *
    split
    · exact e2
    · split
      · rw [h3]; exact e2
      · exact e2

theorem process_step (cb : Cb) (st : St) (k : List UInt8) (v : Option (List UInt8)) : (process cb st k v).2.1.step = st.step := by
  unfold process
  split
  · simp only
    split <;> exact validate_step _ _ _
  · rfl
  · rfl
  · rfl

theorem valueLoop_step (cb : Cb) (k : List UInt8) : ∀ (vs : List (List UInt8)) (st : St), (valueLoop cb k st vs).2.1.step = st.step
  | [], _ => rfl
  | v :: vs, st => by
    rw [valueLoop]
    simp only
    split
    · rfl
    · split
      · exact process_step _ _ _ _
      · simp only; rw [valueLoop_step cb k vs, process_step]

theorem headerKv_step (cb : Cb) (st : St) (k : List UInt8) (v : Option (List UInt8)) : (headerKv cb st k v).2.1.step = st.step := by
  unfold headerKv
  cases v with
  | none => exact process_step _ _ _ _
  | some s =>
    simp only
    split
    · exact process_step _ _ _ _
    · split
      · rfl
      · rfl
      · exact valueLoop_step _ _ _ _

theorem headerLine_step (cb : Cb) (st : St) (line : List UInt8) : (headerLine cb st line).2.1.step = st.step := by
  unfold headerLine
  simp only
  split
  · rfl
  · split
    · rfl
    · split
      · rfl
      · rfl
      · rfl
      · split
        · rfl
        · split
          · rfl
          · exact headerKv_step _ _ _ _

theorem headerLoop_step (cb : Cb) : ∀ (f : Nat) (st : St) (p : List UInt8), (headerLoop cb f st p).st.step = st.step
  | 0, _, _ => rfl
  | f + 1, st, p => by
    rw [headerLoop]
    split
    · rfl
    · split
      · rfl
      · rfl
      · simp only
        split
        · exact headerLine_step _ _ _
        · simp only; rw [headerLoop_step cb f, headerLine_step]

theorem readHeader_step (cb : Cb) (st : St) (p : List UInt8) : (readHeader cb st p).st.step = st.step := by
  unfold readHeader
  split
  · rfl
  · exact headerLoop_step _ _ _ _

theorem readBody_step (cb : Cb) (st : St) (p : List UInt8) : (readBody cb st p).st.step = st.step := by
  unfold readBody
  split
  · rfl
  · split
    · rfl
    · simp only
      split <;> split <;> rfl

theorem readChunkData_step (cb : Cb) (st : St) (p : List UInt8) : (readChunkData cb st p).st.step = st.step := by
  unfold readChunkData
  split
  · rfl
  · split
    · rfl
    · simp only
      split <;> split <;> first | rfl | (split <;> rfl)

/-! ### The bytes left are an end of the data -/

theorem headerLoop_suffix (cb : Cb) : ∀ (f : Nat) (st : St) (p : List UInt8), (headerLoop cb f st p).rest <:+ p
  | 0, _, p => List.suffix_refl _
  | f + 1, st, p => by
    rw [headerLoop]
    split
    · exact List.drop_suffix _ _
    · split
      · exact List.suffix_refl _
      · exact List.suffix_refl _
      · simp only
        split
        · exact List.drop_suffix _ _
        · exact (headerLoop_suffix cb f _ _).trans (List.drop_suffix _ _)

theorem readHeader_suffix (cb : Cb) (st : St) (p : List UInt8) : (readHeader cb st p).rest <:+ p := by
  unfold readHeader
  split
  · exact List.suffix_refl _
  · exact headerLoop_suffix _ _ _ _

theorem readBody_suffix (cb : Cb) (st : St) (p : List UInt8) : (readBody cb st p).rest <:+ p := by
  unfold readBody
  split
  · exact List.suffix_refl _
  · split
    · exact List.suffix_refl _
    · simp only
      split <;> split <;> first | exact List.drop_suffix _ _ | exact List.suffix_refl _

theorem readChunkData_suffix (cb : Cb) (st : St) (p : List UInt8) : (readChunkData cb st p).rest <:+ p := by
  unfold readChunkData
  split
  · exact List.suffix_refl _
  · split
    · exact List.suffix_refl _
    · simp only
      have h := @List.drop_suffix UInt8
      split <;> split <;> (try split) <;> first | exact (h _ _).trans (h _ _) | exact h _ _ | exact List.suffix_refl _

theorem readStartLine_suffix (cb : Cb) (uriOk : List UInt8 → Bool) (st : St) (p : List UInt8) : (readStartLine cb uriOk st p).rest <:+ p := by
  unfold readStartLine
  split
  · exact List.suffix_refl _
  · split <;> first | exact List.drop_suffix _ _ | exact List.suffix_refl _

theorem readChunkStart_suffix (cb : Cb) (st : St) (p : List UInt8) : (readChunkStart cb st p).rest <:+ p := by
  unfold readChunkStart
  split
  · exact List.suffix_refl _
  · split <;> first | exact List.drop_suffix _ _ | exact List.suffix_refl _

/-- A function that takes a line and wants more has done nothing. -/
theorem readStartLine_pending {cb : Cb} {uriOk : List UInt8 → Bool} {st : St} {p : List UInt8} (h : Pending (readStartLine cb uriOk st p)) : (readStartLine cb uriOk st p).st = st := by
  unfold readStartLine at h ⊢
  by_cases hp : p = []
  · rw [if_pos hp]
  · rw [if_neg hp] at h ⊢
    split at h
    · rfl
    · rfl
    · exact absurd h.2 (by simp)

theorem readChunkStart_pending {cb : Cb} {st : St} {p : List UInt8} (h : Pending (readChunkStart cb st p)) : (readChunkStart cb st p).st = st := by
  unfold readChunkStart at h ⊢
  by_cases hp : p = []
  · rw [if_pos hp]
  · rw [if_neg hp] at h ⊢
    split at h
    · rfl
    · rfl
    · exact absurd h.1 (by simpa using h.2)

/-! ### Chunks -/

theorem readChunkStart_len {cb : Cb} {st : St} {p : List UInt8} : (readChunkStart cb st p).rest.length ≤ p.length := by
  unfold readChunkStart
  split
  · exact Nat.le_refl _
  · split
    · exact Nat.le_refl _
    · exact Nat.le_refl _
    · simp only [List.length_drop]; omega

theorem readChunkData_len {cb : Cb} {st : St} {p : List UInt8} (h : (readChunkData cb st p).full = true) (hl : st.bodyLen ≠ 0) : (readChunkData cb st p).rest.length < p.length ∧
    (readChunkData cb st p).st.bodyLen = st.bodyLen := by
  revert h
  unfold readChunkData
  rw [if_neg hl]
  split
  · intro h; simp at h
  · simp only
    split <;> split
    · rename_i h2
      rw [List.length_drop] at h2
      split
      · intro _; refine ⟨?_, rfl⟩; simp only [List.length_drop]; omega
      · intro h; simp at h
    · intro h; simp at h
    · rename_i h2
      split
      · intro _; refine ⟨?_, rfl⟩; simp only [List.length_drop]; omega
      · intro h; simp at h
    · intro h; simp at h

theorem readChunkData_zero {cb : Cb} {st : St} {p : List UInt8} (hl : st.bodyLen = 0) : readChunkData cb st p = ⟨.ok, true, st, p, []⟩ := by
  rw [readChunkData, if_pos hl]

/-- `readChunked` with enough fuel. -/
def chunked (cb : Cb) (st : St) (p : List UInt8) : Out := readChunked cb (p.length + 1) st p

/-- What follows the data of a chunk. -/
def afterData (cb : Cb) (next : St → List UInt8 → Out) (st : St) (p : List UInt8) : Out :=
  if st.bodyLen = 0 then (emit cb .chunkFinished { st with step := .trailer, headerLen := 0 } p).andThen (readTrailer cb)
  else (emit cb (.chunkDataDone (st.part + 1)) { st with step := .chunkStart, part := st.part + 1 } p).andThen next

theorem andThen_congr {o : Out} {k k' : St → List UInt8 → Out} (h : o.res = .ok → o.full = true → k o.st o.rest = k' o.st o.rest) : o.andThen k = o.andThen k' := by
  by_cases hc : o.res ≠ .ok ∨ o.full = false
  · rw [andThen_stop hc, andThen_stop hc]
  · have h1 : o.res = .ok := Classical.byContradiction fun hh => hc (.inl hh)
    have h2 : o.full = true := by
      cases hh : o.full
      · exact absurd (.inr hh) hc
      · rfl
    rw [andThen_go h1 h2, andThen_go h1 h2, h h1 h2]

theorem readChunked_fuel (cb : Cb) : ∀ (f g : Nat) (st : St) (p : List UInt8), p.length < f → p.length < g → readChunked cb f st p = readChunked cb g st p
  | 0, _, _, _, h, _ => absurd h (by omega)
  | _ + 1, 0, _, _, _, h => absurd h (by omega)
  | f + 1, g + 1, st, p, h, h' => by
    have data : ∀ (st : St) (q : List UInt8), q.length ≤ p.length →
        (readChunkData cb st q).andThen (afterData cb (readChunked cb f)) = (readChunkData cb st q).andThen (afterData cb (readChunked cb g)) := by
      intro st q hq
      apply andThen_congr
      intro hr hf
      unfold afterData
      by_cases hl : st.bodyLen = 0
      · rw [readChunkData_zero hl]; simp only [if_pos hl]
      · have := readChunkData_len hf hl
        rw [if_neg (by rw [this.2]; exact hl), if_neg (by rw [this.2]; exact hl)]
        apply andThen_congr
        intro _ _
        simp only [emit]
        exact readChunked_fuel cb f g _ _ (by omega) (by omega)
    rw [readChunked, readChunked]
    simp only
    split
    · apply andThen_congr
      intro _ _
      exact data _ _ readChunkStart_len
    · exact data _ _ (Nat.le_refl _)
    · rfl
    · rfl

theorem afterData_fuel (cb : Cb) (p : List UInt8) (st : St) (q : List UInt8) (hq : q.length ≤ p.length) :
    (readChunkData cb st q).andThen (afterData cb (readChunked cb p.length)) = (readChunkData cb st q).andThen (afterData cb (chunked cb)) := by
  apply andThen_congr
  intro hr hf
  unfold afterData
  by_cases hl : st.bodyLen = 0
  · rw [readChunkData_zero hl]; simp only [if_pos hl]
  · have := readChunkData_len hf hl
    rw [if_neg (by rw [this.2]; exact hl), if_neg (by rw [this.2]; exact hl)]
    apply andThen_congr
    intro _ _
    simp only [emit, chunked]
    exact readChunked_fuel cb _ _ _ _ (by omega) (by omega)

theorem chunked_data {cb : Cb} {st : St} (h : st.step = .chunkData) (p : List UInt8) :
    chunked cb st p = (readChunkData cb st p).andThen (afterData cb (chunked cb)) := by
  rw [chunked, readChunked]
  simp only [h]
  exact afterData_fuel cb p st p (Nat.le_refl _)

theorem chunked_start {cb : Cb} {st : St} (h : st.step = .chunkStart) (p : List UInt8) :
    chunked cb st p = (readChunkStart cb st p).andThen fun st p => chunked cb { st with step := .chunkData } p := by
  rw [chunked, readChunked]
  simp only [h]
  apply andThen_congr
  intro _ _
  rw [chunked_data rfl]
  exact afterData_fuel cb p _ _ readChunkStart_len

theorem chunked_trailer {cb : Cb} {st : St} (h : st.step = .trailer) (p : List UInt8) : chunked cb st p = readTrailer cb st p := by
  rw [chunked, readChunked]
  simp only [h]

/-! ### The steps of `M_http_reader_read` -/

theorem andThen_assoc (o : Out) (k l : St → List UInt8 → Out) : (o.andThen k).andThen l = o.andThen fun st p => (k st p).andThen l := by
  by_cases hc : o.res ≠ .ok ∨ o.full = false
  · rw [andThen_stop hc, andThen_stop hc, andThen_stop hc]
  · have h1 : o.res = .ok := Classical.byContradiction fun hh => hc (.inl hh)
    have h2 : o.full = true := by
      cases hh : o.full
      · exact absurd (.inr hh) hc
      · rfl
    rw [andThen_go h1 h2, andThen_go h1 h2, Out.andThen_pre]

/-- The end of the header and what follows. -/
def tail (cb : Cb) (st : St) (p : List UInt8) : Out := (endOfHeader cb st p).andThen (readContent cb)

section
variable {cb : Cb} {uriOk : List UInt8 → Bool} {skip : Bool} {st : St}

theorem steps_header (h : st.step = .header) (p : List UInt8) : steps cb uriOk skip st p = (readHeader cb st p).andThen (tail cb) := by
  unfold steps
  simp only [h, if_true, reduceCtorEq, if_false]
  exact andThen_assoc _ _ _

theorem steps_start (h : st.step = .startLine) (p : List UInt8) :
    steps cb uriOk skip st p = (readStartLine cb uriOk st p).andThen fun st p => steps cb uriOk skip { st with step := .header } p := by
  conv => lhs; unfold steps
  simp only [h, if_true, reduceCtorEq, if_false]
  apply andThen_congr
  intro _ _
  rw [steps_header rfl]
  exact andThen_assoc _ _ _

theorem steps_content (h1 : st.step ≠ .unknown) (h2 : st.step ≠ .startLine) (h3 : st.step ≠ .header) (p : List UInt8) :
    steps cb uriOk skip st p = readContent cb st p := by
  unfold steps
  simp only [h1, h2, h3, if_false]

theorem steps_unknown (h : st.step = .unknown) (p : List UInt8) : steps cb uriOk skip st p =
    if p.drop (whitespace false false p) = [] then ⟨.ok, false, st, [], []⟩
    else steps cb uriOk skip { st with step := if skip then .header else .startLine } (p.drop (whitespace false false p)) := by
  unfold steps
  simp only [h, if_true]
  split
  · rename_i h; rw [h]
  · cases skip <;> simp only [if_true, reduceCtorEq, if_false, Bool.false_eq_true]

theorem content_body (h : st.step = .body) (p : List UInt8) :
    readContent cb st p = (readBody cb st p).andThen fun st p => emit cb .bodyDone { st with step := .done } p := by
  unfold readContent; rw [h]

theorem content_chunked (h : st.step = .chunkStart ∨ st.step = .chunkData ∨ st.step = .trailer) (p : List UInt8) :
    readContent cb st p = chunked cb st p := by
  unfold readContent
  rcases h with h | h | h <;> rw [h] <;> rfl

theorem content_done (h : st.step = .done) (p : List UInt8) : readContent cb st p = ⟨.ok, true, st, p, []⟩ := by
  unfold readContent; rw [h]

/-! ### The stability of the steps -/

theorem step_after {s : Step} (h : st.step = s) {o : Out} (ho : o.st.step = st.step) : o.st.step = s := ho.trans h

theorem body_cont (ht : Takes cb) (h : st.step = .body) {a b : List UInt8} (hb : b ≠ []) :
    Cont (steps cb uriOk skip) (readContent cb) st a b := by
  have := Cont.andThen (D := steps cb uriOk skip) (K := fun st p => emit cb .bodyDone { st with step := .done } p) (readBody_local ht st a b hb)
    (readBody_suffix cb st a)
    (fun _ => by
      have hs := (readBody_step cb st a).trans h
      refine ⟨by rw [hs]; trivial, fun p => ?_⟩
      rw [steps_content (by rw [hs]; simp) (by rw [hs]; simp) (by rw [hs]; simp), content_body hs])
    (fun _ _ => .of_final (fun hp => absurd hp.2 (by simp [Http.emit])) rfl (fun _ => rfl) (List.suffix_refl _))
  exact this.pre (evs := []) (List.suffix_refl _) (by rw [content_body h, Out.pre_nil]) (by rw [content_body h, Out.pre_nil])

theorem trailer_cont (h : st.step = .trailer) (a b : List UInt8) : Cont (steps cb uriOk skip) (readTrailer cb) st a b :=
  Cont.andThen (D := steps cb uriOk skip) (K := fun st p => emit cb .trailerDone { st with step := .done } p) (readHeader_local cb st a b)
    (readHeader_suffix cb st a)
    (fun _ => by
      have hs := (readHeader_step cb st a).trans h
      refine ⟨by rw [hs]; trivial, fun p => ?_⟩
      rw [steps_content (by rw [hs]; simp) (by rw [hs]; simp) (by rw [hs]; simp), content_chunked (.inr (.inr hs)), chunked_trailer hs]
      rfl)
    (fun _ _ => .of_final (fun hp => absurd hp.2 (by simp [Http.emit])) rfl (fun _ => rfl) (List.suffix_refl _))

theorem Cont.congr {D K K' : St → List UInt8 → Out} {a b : List UInt8} (h : Cont D K st a b) (e : ∀ p, K' st p = K st p) : Cont D K' st a b :=
  h.pre (evs := []) (List.suffix_refl _) (by rw [e, Out.pre_nil]) (by rw [e, Out.pre_nil])

theorem Cont.arg {D K : St → List UInt8 → Out} {a b : List UInt8} {g : St → St} (h : Cont D K (g st) a b) : Cont D (fun st p => K (g st) p) st a b :=
  h.pre (evs := []) (List.suffix_refl _) (by rw [Out.pre_nil]) (by rw [Out.pre_nil])

theorem chunked_cont (ht : Takes cb) {b : List UInt8} (hb : b ≠ []) : ∀ (n : Nat) (st : St) (a : List UInt8), a.length ≤ n →
    (st.step = .chunkStart ∨ st.step = .chunkData ∨ st.step = .trailer) → Cont (steps cb uriOk skip) (chunked cb) st a b := by
  intro n
  induction n using Nat.strongRecOn with
  | _ n ih =>
    have data : ∀ (st : St) (a : List UInt8), a.length ≤ n → st.step = .chunkData → Cont (steps cb uriOk skip) (chunked cb) st a b := by
      intro st a hn h
      refine Cont.congr (K := fun st p => (readChunkData cb st p).andThen (afterData cb (chunked cb))) ?_ (chunked_data h)
      refine Cont.andThen (readChunkData_local ht st a b hb) (readChunkData_suffix cb st a) (fun _ => ?_) (fun hr hf => ?_)
      · have hs := (readChunkData_step cb st a).trans h
        refine ⟨by rw [hs]; trivial, fun p => ?_⟩
        rw [steps_content (by rw [hs]; simp) (by rw [hs]; simp) (by rw [hs]; simp), content_chunked (.inr (.inl hs)), chunked_data hs]
      · by_cases hl : st.bodyLen = 0
        · rw [readChunkData_zero hl]
          refine Cont.congr (K := fun st p => (emit cb .chunkFinished { st with step := .trailer, headerLen := 0 } p).andThen (readTrailer cb)) ?_
            (fun p => by rw [afterData, if_pos hl])
          exact Cont.arg (K := fun st p => (emit cb .chunkFinished st p).andThen (readTrailer cb)) (g := fun st => { st with step := .trailer, headerLen := 0 })
            (.emit cb _ (trailer_cont rfl _ _))
        · have hc := readChunkData_len hf hl
          generalize readChunkData cb st a = o at *
          refine Cont.congr (K := fun st p => (emit cb (.chunkDataDone (o.st.part + 1)) { st with step := .chunkStart, part := st.part + 1 } p).andThen (chunked cb)) ?_
            (fun p => by rw [afterData, if_neg (by rw [hc.2]; exact hl)])
          exact Cont.arg (K := fun st p => (emit cb (.chunkDataDone (o.st.part + 1)) st p).andThen (chunked cb))
            (g := fun st => { st with step := .chunkStart, part := st.part + 1 })
            (.emit cb _ (ih o.rest.length (by omega) _ _ (Nat.le_refl _) (.inl rfl)))
    intro st a hn h
    rcases h with h | h | h
    · refine Cont.congr (K := fun st p => (readChunkStart cb st p).andThen fun st p => chunked cb { st with step := .chunkData } p) ?_ (chunked_start h)
      refine Cont.andThen (readChunkStart_local cb st a b) (readChunkStart_suffix cb st a) (fun hp => ?_) (fun hr hf => ?_)
      · have hs : (readChunkStart cb st a).st.step = .chunkStart := by rw [readChunkStart_pending hp, h]
        refine ⟨by rw [hs]; trivial, fun p => ?_⟩
        rw [steps_content (by rw [hs]; simp) (by rw [hs]; simp) (by rw [hs]; simp), content_chunked (.inl hs), chunked_start hs]
      · exact Cont.arg (K := chunked cb) (g := fun st => { st with step := .chunkData })
          (data _ _ (Nat.le_trans readChunkStart_len hn) rfl)
    · exact data st a hn h
    · exact (trailer_cont h a b).congr (chunked_trailer h)

/-- The kinds of step after the header of a message that is not multipart. -/
theorem content_cont (ht : Takes cb) {a b : List UInt8} (hb : b ≠ [])
    (h : st.step = .body ∨ (st.step = .chunkStart ∨ st.step = .chunkData ∨ st.step = .trailer) ∨ st.step = .done) :
    Cont (steps cb uriOk skip) (readContent cb) st a b := by
  rcases h with h | h | h
  · exact body_cont ht h hb
  · exact (chunked_cont ht hb _ st a (Nat.le_refl _) h).congr (content_chunked h)
  · refine .of_final ?_ ?_ ?_ (by rw [content_done h]; exact List.suffix_refl _)
    · rw [content_done h]; intro hp; exact absurd hp.2 (by simp)
    · rw [content_done h, content_done h]
    · intro _; rw [content_done h]; exact h

/-- The callback that announces a multipart body. -/
def mp : Ev := .headerDone .multipart

theorem chooseStep_step (st : St) : ((chooseStep st).step = .body ∨ (chooseStep st).step = .chunkStart ∨ (chooseStep st).step = .done) ∨
    ((chooseStep st).step = .preamble ∧ (chooseStep st).format = .multipart) := by
  unfold chooseStep
  split
  · exact .inl (.inr (.inl rfl))
  · rename_i h; exact .inr ⟨rfl, h⟩
  · split
    · exact .inl (.inr (.inr rfl))
    · exact .inl (.inl rfl)
  · exact .inl (.inr (.inr rfl))

theorem calc_same (st : St) : (calculateBodyLen st).2.step = st.step ∧ (calculateBodyLen st).2.format = st.format := by
  unfold calculateBodyLen
  split
  · exact ⟨rfl, rfl⟩
  · split
    · exact ⟨rfl, rfl⟩
    · split <;> exact ⟨rfl, rfl⟩

theorem tail_cont (ht : Takes cb) {a b : List UInt8} (hb : b ≠ []) (hm : mp ∉ (tail cb st (a ++ b)).evs) :
    Cont (steps cb uriOk skip) (tail cb) st a b := by
  have hl : Local (endOfHeader cb) st a b := by
    have hn : ∀ p, ¬ Pending (endOfHeader cb st p) := by
      intro p hp
      unfold endOfHeader at hp
      simp only at hp
      split at hp
      · exact absurd hp.2 (by simp)
      · exact absurd hp.2 (by simp [Http.emit])
    refine ⟨fun _ => ?_, fun hp => absurd hp (hn _)⟩
    unfold endOfHeader
    simp only
    split <;> rfl
  have hx : (endOfHeader cb st a).rest <:+ a := by
    unfold endOfHeader
    simp only
    split <;> exact List.suffix_refl _
  refine Cont.andThen hl hx (fun hp => ?_) (fun hr hf => ?_)
  · exfalso
    unfold endOfHeader at hp
    simp only at hp
    split at hp
    · exact absurd hp.2 (by simp)
    · exact absurd hp.2 (by simp [Http.emit])
  · have hok : (calculateBodyLen (chooseStep st)).1 = .ok := Classical.byContradiction fun hh => by
      unfold endOfHeader at hr
      simp only at hr
      rw [if_pos hh] at hr
      exact hh hr
    have e : ∀ p, endOfHeader cb st p = emit cb (.headerDone (calculateBodyLen (chooseStep st)).2.format) (calculateBodyLen (chooseStep st)).2 p := by
      intro p
      unfold endOfHeader
      simp only
      rw [if_neg (by simp [hok])]
    have hs := calc_same (chooseStep st)
    rw [e] at hr ⊢
    have hst : (emit cb (.headerDone (calculateBodyLen (chooseStep st)).2.format) (calculateBodyLen (chooseStep st)).2 a).st.step = (chooseStep st).step := hs.1
    rcases chooseStep_step st with hc | ⟨hc, hf2⟩
    · apply content_cont ht hb
      rw [hst]
      rcases hc with hc | hc | hc
      · exact .inl hc
      · exact .inr (.inl (.inl hc))
      · exact .inr (.inr hc)
    · exfalso
      apply hm
      rw [tail, e, andThen_go (by exact hr) rfl]
      rw [hs.2, hf2]
      exact List.mem_append_left _ (List.mem_singleton.2 rfl)

theorem header_cont (ht : Takes cb) {a b : List UInt8} (hb : b ≠ []) (h : st.step = .header) (hm : mp ∉ (steps cb uriOk skip st (a ++ b)).evs) :
    Cont (steps cb uriOk skip) (steps cb uriOk skip) st a b := by
  refine Cont.congr (K := fun st p => (readHeader cb st p).andThen (tail cb)) ?_ (steps_header h)
  have hl := readHeader_local cb st a b
  refine Cont.andThen hl (readHeader_suffix cb st a) (fun hp => ?_) (fun hr hf => ?_)
  · have hs := (readHeader_step cb st a).trans h
    exact ⟨by rw [hs]; trivial, fun p => steps_header hs p⟩
  · apply tail_cont ht hb
    intro hc
    apply hm
    rw [steps_header h, hl.final (fun hp => absurd hp.2 (by simp [hf]))]
    rw [andThen_go (by exact hr) (by exact hf)]
    exact List.mem_append_right _ hc

theorem start_cont (ht : Takes cb) {a b : List UInt8} (hb : b ≠ []) (h : st.step = .startLine) (hm : mp ∉ (steps cb uriOk skip st (a ++ b)).evs) :
    Cont (steps cb uriOk skip) (steps cb uriOk skip) st a b := by
  refine Cont.congr (K := fun st p => (readStartLine cb uriOk st p).andThen fun st p => steps cb uriOk skip { st with step := .header } p) ?_ (steps_start h)
  have hl := readStartLine_local cb uriOk st a b
  refine Cont.andThen hl (readStartLine_suffix cb uriOk st a) (fun hp => ?_) (fun hr hf => ?_)
  · have hs : (readStartLine cb uriOk st a).st.step = .startLine := by rw [readStartLine_pending hp, h]
    exact ⟨by rw [hs]; trivial, fun p => steps_start hs p⟩
  · refine Cont.arg (K := steps cb uriOk skip) (g := fun st => { st with step := .header }) (header_cont ht hb rfl ?_)
    intro hc
    apply hm
    rw [steps_start h, hl.final (fun hp => absurd hp.2 (by simp [hf]))]
    rw [andThen_go (by exact hr) (by exact hf)]
    exact List.mem_append_right _ hc

theorem whitespace_append (a b : List UInt8) : (whitespace false false a = a.length ∧ whitespace false false (a ++ b) = a.length + whitespace false false b) ∨
    (whitespace false false a < a.length ∧ whitespace false false (a ++ b) = whitespace false false a) := by
  induction a with
  | nil => left; simp [whitespace]
  | cons x xs ih =>
    simp only [List.cons_append, whitespace, Bool.false_eq_true, false_and, if_false, List.length_cons]
    split
    · right; exact ⟨by omega, rfl⟩
    · omega

theorem steps_cont (ht : Takes cb) {a b : List UInt8} (hb : b ≠ []) (h : Waits st.step) (hm : mp ∉ (steps cb uriOk skip st (a ++ b)).evs) :
    Cont (steps cb uriOk skip) (steps cb uriOk skip) st a b := by
  by_cases h1 : st.step = .unknown
  · have e := steps_unknown (cb := cb) (uriOk := uriOk) (skip := skip) h1
    rcases whitespace_append a b with ⟨ha, hab⟩ | ⟨ha, hab⟩
    · have e1 : steps cb uriOk skip st a = ⟨.ok, false, st, [], []⟩ := by rw [e, if_pos (by rw [ha, List.drop_length])]
      have e2 : steps cb uriOk skip st (a ++ b) = steps cb uriOk skip st b := by
        rw [e, e b, hab, List.drop_append, List.drop_eq_nil_of_le (by omega), Nat.add_sub_cancel_left, List.nil_append]
      have hp : Pending (steps cb uriOk skip st a) := by rw [e1]; exact ⟨rfl, rfl⟩
      refine ⟨fun hn => absurd hp hn, fun _ => ?_, fun _ => ?_, fun hn => absurd hp hn, ?_⟩
      · rw [e1]
        simp only [List.nil_append, Out.pre_nil]
        exact .of_eq e2
      · rw [e1]; exact h
      · rw [e1]; exact List.nil_suffix
    · have hd : (a ++ b).drop (whitespace false false (a ++ b)) = a.drop (whitespace false false a) ++ b := by
        rw [hab, List.drop_append_of_le_length (by omega)]
      have hne : a.drop (whitespace false false a) ≠ [] := by
        intro hh; rw [List.drop_eq_nil_iff] at hh; omega
      have e1 := e a
      rw [if_neg hne] at e1
      have e2 := e (a ++ b)
      rw [hd, if_neg (by simp [hne])] at e2
      rw [e2] at hm
      have hc : Cont (steps cb uriOk skip) (steps cb uriOk skip) { st with step := if skip then .header else .startLine } (a.drop (whitespace false false a)) b := by
        cases skip
        · exact start_cont ht hb rfl hm
        · exact header_cont ht hb rfl hm
      exact hc.pre (evs := []) (List.drop_suffix _ _) (by rw [Out.pre_nil, e1]) (by rw [Out.pre_nil, e2])
  · by_cases h2 : st.step = .startLine
    · exact start_cont ht hb h2 hm
    · by_cases h3 : st.step = .header
      · exact header_cont ht hb h3 hm
      · refine Cont.congr ?_ (steps_content h1 h2 h3)
        apply content_cont ht hb
        revert h h1 h2 h3
        cases st.step <;> simp [Waits]

end

end Verif.Http
