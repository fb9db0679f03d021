import Verif.Http.Feed
/- C84: how a stream is cut into pieces does not matter to the HTTP reader. -/
namespace Verif.Http

/-- A user of the reader as its documentation describes them: the bytes not read are kept and given again in front of the
next piece, as long as the reader asks for more.  The result, the bytes not read, the state and the callbacks. -/
def feed (cb : Cb) (uriOk : List UInt8 → Bool) (skip : Bool) : St → List UInt8 → List (List UInt8) → Result × List UInt8 × St × List Ev
  | st, held, [] => (.moreData, held, st, [])
  | st, held, p :: ps =>
    let data := held ++ p
    let r := read cb uriOk skip st data
    let left := data.drop r.2.1
    if (r.1 = .moreData ∨ r.1 = .morePossible) ∧ ps ≠ [] then
      let q := feed cb uriOk skip r.2.2.1 left ps
      (q.1, q.2.1, q.2.2.1, r.2.2.2 ++ q.2.2.2)
    else (r.1, left ++ ps.flatten, r.2.2.1, r.2.2.2)

section
variable {cb : Cb} {uriOk : List UInt8 → Bool} {skip : Bool} {st : St}

theorem read_eq {d : List UInt8} (hd : d ≠ []) (h : Waits st.step) :
    read cb uriOk skip st d = (verdict (steps cb uriOk skip st d).res (steps cb uriOk skip st d).st, d.length - (steps cb uriOk skip st d).rest.length,
      (steps cb uriOk skip st d).st, (steps cb uriOk skip st d).evs) := by
  rw [read, if_neg hd, if_neg (by intro hh; rw [hh] at h; exact h)]

theorem drop_suffix_len {a b : List UInt8} (h : a <:+ b) : b.drop (b.length - a.length) = a := by
  obtain ⟨x, rfl⟩ := h
  rw [List.length_append, Nat.add_sub_cancel, List.drop_left]

/-- A reader that waits says so, and one that does not wait does not. -/
theorem verdict_more {o : Out} (h1 : Pending o → Waits o.st.step) (h2 : ¬ Pending o → o.res = .ok → o.st.step = .done) :
    (verdict o.res o.st = .moreData ∨ verdict o.res o.st = .morePossible) ↔ Pending o := by
  unfold verdict
  by_cases hr : o.res = .ok
  · rw [if_neg (by simp [hr])]
    by_cases hp : Pending o
    · have := h1 hp
      refine ⟨fun _ => hp, fun _ => ?_⟩
      split
      · exact .inr rfl
      · left
        rw [if_pos]
        intro hh; rw [hh] at this; exact this
    · have hd := h2 hp hr
      simp [hd, hp]
  · rw [if_pos hr]
    refine ⟨fun h => ?_, fun h => absurd h.1 hr⟩
    rcases h with h | h <;> cases h

theorem andThen_suffix {o : Out} {k : St → List UInt8 → Out} {p : List UInt8} (h : o.rest <:+ p) (hk : ∀ st q, (k st q).rest <:+ q) : (o.andThen k).rest <:+ p := by
  unfold Out.andThen
  split
  · exact h
  · exact (hk _ _).trans h

theorem readChunked_suffix (cb : Cb) : ∀ (f : Nat) (st : St) (p : List UInt8), (readChunked cb f st p).rest <:+ p
  | 0, _, _ => List.suffix_refl _
  | f + 1, st, p => by
    have trailer : ∀ st p, (readTrailer cb st p).rest <:+ p := fun st p => andThen_suffix (readHeader_suffix _ _ _) fun _ _ => List.suffix_refl _
    have data : ∀ (st : St) (q : List UInt8), ((readChunkData cb st q).andThen (afterData cb (readChunked cb f))).rest <:+ q := by
      intro st q
      refine andThen_suffix (readChunkData_suffix _ _ _) fun st q => ?_
      unfold afterData
      split
      · exact andThen_suffix (List.suffix_refl _) trailer
      · exact andThen_suffix (List.suffix_refl _) (readChunked_suffix cb f)
    rw [readChunked]
    simp only
    split
    · exact andThen_suffix (readChunkStart_suffix _ _ _) fun _ _ => data _ _
    · exact data _ _
    · exact trailer _ _
    · exact List.suffix_refl _

theorem steps_suffix (p : List UInt8) : (steps cb uriOk skip st p).rest <:+ p := by
  have content : ∀ st p, (readContent cb st p).rest <:+ p := by
    intro st p
    unfold readContent
    split
    · exact andThen_suffix (readBody_suffix _ _ _) fun _ _ => List.suffix_refl _
    · exact readChunked_suffix _ _ _ _
    · exact readChunked_suffix _ _ _ _
    · exact readChunked_suffix _ _ _ _
    all_goals first
      | exact List.suffix_refl _
      | (unfold readMultipart
         split
         · exact List.suffix_refl _
         · simp only
           generalize (if st.haveLen = true then min p.length (st.bodyLen - st.seen) else p.length) = n
           by_cases hn : n = 0
           · rw [if_pos hn]; exact List.suffix_refl _
           · rw [if_neg hn]; exact List.drop_suffix _ _)
  have tl : ∀ st p, (tail cb st p).rest <:+ p := by
    intro st p
    refine andThen_suffix ?_ content
    unfold endOfHeader
    simp only
    split <;> exact List.suffix_refl _
  have other : ∀ (st : St) p, st.step ≠ .unknown → (steps cb uriOk skip st p).rest <:+ p := by
    intro st p h1
    by_cases h2 : st.step = .startLine
    · rw [steps_start h2]
      refine andThen_suffix (readStartLine_suffix _ _ _ _) fun st q => ?_
      rw [steps_header rfl]
      exact andThen_suffix (readHeader_suffix _ _ _) tl
    · by_cases h3 : st.step = .header
      · rw [steps_header h3]
        exact andThen_suffix (readHeader_suffix _ _ _) tl
      · rw [steps_content h1 h2 h3]; exact content _ _
  by_cases h : st.step = .unknown
  · rw [steps_unknown h]
    split
    · exact List.nil_suffix
    · refine (other _ _ ?_).trans (List.drop_suffix _ _)
      cases skip <;> simp
  · exact other st p h

theorem mp_units {e e' : List Ev} (h : units e = units e') (hm : mp ∉ e) : mp ∉ e' := by
  have key : ∀ l : List Ev, mp ∈ l ↔ mp ∈ units l := by
    intro l
    unfold units
    rw [List.mem_flatMap]
    constructor
    · intro h; exact ⟨mp, h, List.mem_singleton.2 rfl⟩
    · rintro ⟨x, hx, hu⟩
      cases x <;> simp only [unit, List.mem_map, List.mem_singleton] at hu <;> first
        | (rw [hu]; exact hx)
        | (obtain ⟨_, _, hh⟩ := hu; cases hh)
  rw [key, ← h, ← key]; exact hm

/-- The general form, from any state in which the reader waits and with bytes kept. -/
theorem feed_any (ht : Takes cb) : ∀ (ps : List (List UInt8)) (st : St) (held : List UInt8), ps ≠ [] → (∀ p ∈ ps, p ≠ []) → Waits st.step →
    mp ∉ (read cb uriOk skip st (held ++ ps.flatten)).2.2.2 →
    (feed cb uriOk skip st held ps).1 = (read cb uriOk skip st (held ++ ps.flatten)).1 ∧
    (feed cb uriOk skip st held ps).2.1 = (held ++ ps.flatten).drop (read cb uriOk skip st (held ++ ps.flatten)).2.1 ∧
    (feed cb uriOk skip st held ps).2.2.1 = (read cb uriOk skip st (held ++ ps.flatten)).2.2.1 ∧
    units (feed cb uriOk skip st held ps).2.2.2 = units (read cb uriOk skip st (held ++ ps.flatten)).2.2.2
  | [], _, _, h, _, _, _ => absurd rfl h
  | [p], st, held, _, _, _, _ => by simp [feed]
  | p :: q :: ps, st, held, _, hne, hw, hm => by
    have hp : p ≠ [] := hne p (by simp)
    have hq : q ≠ [] := hne q (by simp)
    have hd : held ++ p ≠ [] := by simp [hp]
    have hb : (q :: ps).flatten ≠ [] := by simp [hq]
    have e : held ++ (p :: q :: ps).flatten = (held ++ p) ++ (q :: ps).flatten := by simp
    rw [e] at hm ⊢
    rw [feed]
    simp only
    generalize (held ++ p) = a at *
    have hab : a ++ (q :: ps).flatten ≠ [] := by simp [hd]
    rw [read_eq hab hw] at hm ⊢
    rw [read_eq hd hw]
    simp only at hm ⊢
    have hc := steps_cont (cb := cb) (uriOk := uriOk) (skip := skip) ht hb hw hm
    have hv := verdict_more hc.waits hc.done
    rw [drop_suffix_len (steps_suffix (a ++ _)), drop_suffix_len (steps_suffix a)]
    by_cases hpd : Pending (steps cb uriOk skip st a)
    · rw [if_pos ⟨hv.2 hpd, by simp⟩]
      have hs := hc.pending hpd
      have hw' := hc.waits hpd
      generalize steps cb uriOk skip st a = o at *
      have hne' : o.rest ++ (q :: ps).flatten ≠ [] := by simp [hq]
      have ih := feed_any ht (q :: ps) o.st o.rest (by simp) (fun x hx => hne x (List.mem_cons_of_mem _ hx)) hw' (by
        rw [read_eq hne' hw']
        have := mp_units hs.evs hm
        exact fun hx => this (List.mem_append_right _ hx))
      rw [read_eq hne' hw', drop_suffix_len (steps_suffix _)] at ih
      simp only at ih ⊢
      rw [ih.1, ih.2.1, ih.2.2.1, units_append, ih.2.2.2, hs.res, hs.st, hs.rest, hs.evs]
      refine ⟨rfl, rfl, rfl, ?_⟩
      rw [← units_append]; rfl
    · rw [if_neg (fun hx => hpd (hv.1 hx.1)), hc.final hpd]
      exact ⟨rfl, rfl, rfl, rfl⟩

/-- C84: the pieces in which a message that is not multipart arrives do not matter.  For a user whose callbacks for data
succeed, giving the pieces one after another has the same result as giving all of them at once, leaves the same bytes
unread, leaves the reader in the same state and makes the same callbacks, but for how the data of a body or a chunk is
divided among them. -/
theorem feed_read_partial (ht : Takes cb) (ps : List (List UInt8)) (hps : ps ≠ []) (hne : ∀ p ∈ ps, p ≠ [])
    (hm : Ev.headerDone .multipart ∉ (read cb uriOk skip init ps.flatten).2.2.2) :
    (feed cb uriOk skip init [] ps).1 = (read cb uriOk skip init ps.flatten).1 ∧
    (feed cb uriOk skip init [] ps).2.1 = ps.flatten.drop (read cb uriOk skip init ps.flatten).2.1 ∧
    (feed cb uriOk skip init [] ps).2.2.1 = (read cb uriOk skip init ps.flatten).2.2.1 ∧
    units (feed cb uriOk skip init [] ps).2.2.2 = units (read cb uriOk skip init ps.flatten).2.2.2 := by
  have := feed_any (uriOk := uriOk) (skip := skip) ht ps init [] hps hne trivial (by simpa [mp] using hm)
  simpa using this

end

/-- A user whose callbacks all succeed. -/
def allOk : Cb := fun _ => none

/-- The hypotheses of `feed_read_partial` hold for a message with a body, cut in the start line, in the header and in the body, and
what follows the message is left unread. -/
def exampleMessage : List UInt8 :=
  [80, 85, 84, 32, 47, 97, 32, 72, 84, 84, 80, 47, 49, 46, 49, 13, 10, 72, 111, 115, 116, 58, 32, 98, 13, 10, 67, 111, 110, 116, 101, 110, 116, 45, 76, 101, 110, 103, 116, 104, 58, 32, 51, 13, 10, 13, 10, 97, 98, 99, 80, 85, 84]

example : Takes allOk ∧ Ev.headerDone .multipart ∉ (read allOk (fun _ => true) false init exampleMessage).2.2.2 ∧
    (feed allOk (fun _ => true) false init [] [exampleMessage.take 7, (exampleMessage.drop 7).take 22, (exampleMessage.drop 29).take 19, exampleMessage.drop 48]).1 = .success ∧
    (feed allOk (fun _ => true) false init [] [exampleMessage.take 7, (exampleMessage.drop 7).take 22, (exampleMessage.drop 29).take 19, exampleMessage.drop 48]).2.1 = [80, 85, 84] :=
  ⟨⟨fun _ => rfl, fun _ _ => rfl⟩, by decide +kernel, by decide +kernel, by decide +kernel⟩

/-- A request with a multipart body of one part, `ab`. -/
def multipartMessage : List UInt8 :=
  [80, 85, 84, 32, 47, 32, 72, 84, 84, 80, 47, 49, 46, 49, 13, 10, 67, 111, 110, 116, 101, 110, 116, 45, 84, 121, 112, 101, 58, 32, 109, 117, 108, 116, 105, 112, 97, 114, 116, 47, 102, 111, 114, 109, 45, 100, 97, 116, 97, 59, 32, 98, 111, 117, 110, 100, 97, 114, 121, 61, 120, 13, 10, 67, 111, 110, 116, 101, 110, 116, 45, 76, 101, 110, 103, 116, 104, 58, 32, 49, 56, 13, 10, 13, 10, 45, 45, 120, 13, 10, 13, 10, 97, 98, 13, 10, 45, 45, 120, 45, 45, 13, 10]

/-- C84 fails for multipart bodies: the message is accepted at once; cut after the `a` of its part it is refused; cut after the
second boundary the reader stops making progress, since the step it is in is missing from the list in
`formats/http/m_http_reader.c:1263-1266`; cut inside the first boundary, the bytes seen of it are lost. -/
theorem multipart_pieces_fails :
    (read allOk (fun _ => true) false init multipartMessage).1 = .success ∧
    (feed allOk (fun _ => true) false init [] [multipartMessage.take 93, multipartMessage.drop 93]).1 = .error .multipartInvalid ∧
    ((feed allOk (fun _ => true) false init [] [multipartMessage.take 99, multipartMessage.drop 99]).1 = .moreData ∧
      (feed allOk (fun _ => true) false init [] [multipartMessage.take 99, multipartMessage.drop 99]).2.1 = [45, 45, 13, 10]) ∧
    (feed allOk (fun _ => true) false init [] [multipartMessage.take 87, multipartMessage.drop 87]).1 = .error .multipartMissingData := by
  decide +kernel

end Verif.Http
