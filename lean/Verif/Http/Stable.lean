import Verif.Http.Model
import Verif.Parser.ScanProps
/- Helper lemmas for the HTTP reader: what it does with the bytes at hand does not depend on the bytes still to come. -/
namespace Verif.Http
open Verif.Parser.Scan

/-- A callback with data is as good as one per byte. -/
def unit : Ev → List Ev
  | .body d => d.map fun b => .body [b]
  | .chunkData d i => d.map fun b => .chunkData [b] i
  | e => [e]

def units (evs : List Ev) : List Ev := evs.flatMap unit

theorem units_append (x y : List Ev) : units (x ++ y) = units x ++ units y := by simp [units]

/-- Put callbacks in front. -/
def Out.pre (evs : List Ev) (o : Out) : Out := { o with evs := evs ++ o.evs }

/-- Equal up to the way data is cut into callbacks. -/
structure Sim (o1 o2 : Out) : Prop where
  res : o1.res = o2.res
  full : o1.full = o2.full
  st : o1.st = o2.st
  rest : o1.rest = o2.rest
  evs : units o1.evs = units o2.evs

theorem Sim.refl (o : Out) : Sim o o := ⟨rfl, rfl, rfl, rfl, rfl⟩
theorem Sim.of_eq {o1 o2 : Out} (h : o1 = o2) : Sim o1 o2 := h ▸ .refl _
theorem Sim.trans {o1 o2 o3 : Out} (h : Sim o1 o2) (h' : Sim o2 o3) : Sim o1 o3 :=
  ⟨h.1.trans h'.1, h.2.trans h'.2, h.3.trans h'.3, h.4.trans h'.4, h.5.trans h'.5⟩
theorem Sim.pre {o1 o2 : Out} (h : Sim o1 o2) (evs : List Ev) : Sim (o1.pre evs) (o2.pre evs) :=
  ⟨h.1, h.2, h.3, h.4, by simp only [Out.pre, units_append, h.5]⟩
theorem Sim.symm {o1 o2 : Out} (h : Sim o1 o2) : Sim o2 o1 := ⟨h.1.symm, h.2.symm, h.3.symm, h.4.symm, h.5.symm⟩

@[simp] theorem Out.pre_nil (o : Out) : o.pre [] = o := rfl
theorem Out.pre_pre (x y : List Ev) (o : Out) : (o.pre y).pre x = o.pre (x ++ y) := by simp [Out.pre]

theorem Out.andThen_pre (o : Out) (k : St → List UInt8 → Out) (evs : List Ev) : (o.pre evs).andThen k = (o.andThen k).pre evs := by
  unfold Out.andThen Out.pre
  by_cases h : o.res ≠ .ok ∨ o.full = false
  · simp only [if_pos h]
  · simp only [if_neg h, List.append_assoc]

theorem Sim.andThen {o1 o2 : Out} (h : Sim o1 o2) (k : St → List UInt8 → Out) : Sim (o1.andThen k) (o2.andThen k) := by
  unfold Out.andThen
  rw [h.1, h.2, h.3, h.4]
  by_cases hc : o2.res ≠ .ok ∨ o2.full = false
  · simp only [if_pos hc]; exact h
  · simp only [if_neg hc]; exact ⟨rfl, rfl, rfl, rfl, by simp only [units_append, h.5]⟩

/-- The function wants more bytes. -/
def Pending (o : Out) : Prop := o.res = .ok ∧ o.full = false

instance (o : Out) : Decidable (Pending o) := by unfold Pending; infer_instance

theorem andThen_stop {o : Out} (h : o.res ≠ .ok ∨ o.full = false) (k : St → List UInt8 → Out) : o.andThen k = o := by
  unfold Out.andThen; rw [if_pos h]

theorem andThen_go {o : Out} (h : o.res = .ok) (h' : o.full = true) (k : St → List UInt8 → Out) : o.andThen k = (k o.st o.rest).pre o.evs := by
  unfold Out.andThen; rw [if_neg (by simp [h, h'])]; rfl

theorem first_append {p b : List UInt8} {k : Nat} (h : First p crlf k) : First (p ++ b) crlf k := by
  obtain ⟨⟨x, q, rfl, hk⟩, h2⟩ := h
  refine ⟨⟨x, q ++ b, by simp, hk⟩, ?_⟩
  intro x' q' e
  refine Nat.le_of_not_lt fun hlt => ?_
  have e' : x ++ crlf ++ (q ++ b) = x' ++ crlf ++ q' := by simpa using e
  have h3 : (x' ++ crlf) <+: (x ++ crlf ++ (q ++ b)) := ⟨q', e'.symm⟩
  have h4 : (x ++ crlf) <+: (x ++ crlf ++ (q ++ b)) := ⟨_, rfl⟩
  have h5 : (x' ++ crlf) <+: (x ++ crlf) := List.prefix_of_prefix_length_le h3 h4 (by simp; omega)
  obtain ⟨z, hz⟩ := h5
  have := h2 x' (z ++ q) (by rw [← hz]; simp)
  omega

theorem first_unique {p : List UInt8} {j k : Nat} (h : First p crlf j) (h' : First p crlf k) : j = k := by
  obtain ⟨⟨x, q, e, hk⟩, h2⟩ := h
  obtain ⟨⟨x', q', e', hk'⟩, h2'⟩ := h'
  have := h2 _ _ e'
  have := h2' _ _ e
  omega

/-- Where the first line ends. -/
theorem until_crlf (p : List UInt8) : ∃ k, untilLen p crlf false = some k ∧ (k ≠ 0 → First p crlf k) ∧
    (k = 0 → crlf.isPrefixOf p = false → ∀ x q, p ≠ x ++ crlf ++ q) := by
  obtain ⟨n, h1, h2⟩ := until_correct p crlf false (by decide)
  refine ⟨n, h1, ?_, ?_⟩
  · intro hn
    rcases h2 with ⟨k, h2, rfl⟩ | ⟨_, h2⟩
    · exact h2
    · exact absurd h2 hn
  · intro hn hp
    rcases h2 with ⟨k, ⟨⟨x, q, e, hk⟩, _⟩, hk'⟩ | ⟨h2, _⟩
    · exfalso
      simp only [Bool.false_eq_true, if_false] at hk'
      have hx : x = [] := List.length_eq_zero_iff.mp (by omega)
      subst hx
      rw [e] at hp
      simp [crlf] at hp
    · exact h2

theorem until_first {p : List UInt8} {k : Nat} (h : First p crlf k) : untilLen p crlf false = some k := by
  obtain ⟨n, h1, h2⟩ := until_correct p crlf false (by decide)
  rcases h2 with ⟨k', h2, h3⟩ | ⟨h2, _⟩
  · rw [h1, h3, if_neg (by decide), first_unique h2 h]
  · obtain ⟨⟨x, q, e, _⟩, _⟩ := h
    exact absurd e (h2 x q)

theorem until_append {p : List UInt8} {k : Nat} (h : untilLen p crlf false = some (k + 1)) (b : List UInt8) :
    untilLen (p ++ b) crlf false = some (k + 1) ∧ k + 3 ≤ p.length ∧ crlf.isPrefixOf p = false ∧ crlf.isPrefixOf (p ++ b) = false := by
  obtain ⟨n, h1, h2, _⟩ := until_crlf p
  rw [h] at h1
  cases h1
  have hf := h2 (by omega)
  have hf' := first_append (b := b) hf
  have np : ∀ {q : List UInt8}, First q crlf (k + 1) → crlf.isPrefixOf q = false := by
    intro q hq
    rw [Bool.eq_false_iff]
    intro hc
    obtain ⟨r, hr⟩ := List.isPrefixOf_iff_prefix.mp hc
    have := hq.2 [] r (by simpa using hr.symm)
    simp at this
  refine ⟨until_first hf', ?_, np hf, np hf'⟩
  obtain ⟨⟨x, q, e, hk⟩, _⟩ := hf
  rw [e]; simp [crlf]; omega

theorem prefix_append {x p : List UInt8} (h : x.isPrefixOf p = true) (b : List UInt8) : x.isPrefixOf (p ++ b) = true := by
  obtain ⟨q, rfl⟩ := List.isPrefixOf_iff_prefix.mp h
  exact List.isPrefixOf_iff_prefix.mpr ⟨q ++ b, by simp⟩

theorem prefix_len {x p : List UInt8} (h : x.isPrefixOf p = true) : x.length ≤ p.length := by
  obtain ⟨q, rfl⟩ := List.isPrefixOf_iff_prefix.mp h
  simp

theorem prefix_append_iff {x p : List UInt8} (h : x.length ≤ p.length) (b : List UInt8) : x.isPrefixOf (p ++ b) = x.isPrefixOf p := by
  rw [Bool.eq_iff_iff, List.isPrefixOf_iff_prefix, List.isPrefixOf_iff_prefix]
  constructor
  · intro hp; exact List.prefix_of_prefix_length_le hp ⟨b, rfl⟩ h
  · rintro ⟨q, rfl⟩; exact ⟨q ++ b, by simp⟩

/-- What a function does with the bytes `a` it also does when `b` follows; if it wanted more, it goes on from where it was. -/
structure Local (F : St → List UInt8 → Out) (st : St) (a b : List UInt8) : Prop where
  final : ¬ Pending (F st a) → F st (a ++ b) = { F st a with rest := (F st a).rest ++ b }
  pending : Pending (F st a) → Sim (F st (a ++ b)) ((F (F st a).st ((F st a).rest ++ b)).pre (F st a).evs)

theorem Local.idle {F : St → List UInt8 → Out} {st : St} {a : List UInt8} (h : F st a = ⟨.ok, false, st, a, []⟩) (b : List UInt8) : Local F st a b := by
  refine ⟨fun hp => absurd (by rw [h]; exact ⟨rfl, rfl⟩) hp, fun _ => ?_⟩
  rw [h]
  exact .refl _

/-! ### Header -/

theorem headerLoop_fuel (cb : Cb) : ∀ (f g : Nat) (st : St) (p : List UInt8), p.length < f → p.length < g → headerLoop cb f st p = headerLoop cb g st p
  | 0, _, _, _, h, _ => absurd h (by omega)
  | _ + 1, 0, _, _, _, h => absurd h (by omega)
  | f + 1, g + 1, st, p, h, h' => by
    simp only [headerLoop]
    split
    · rfl
    · split
      · rfl
      · rfl
      · rename_i n hn
        have := (until_append hn []).2.1
        split
        · rfl
        · rw [headerLoop_fuel cb f g _ _ (by rw [List.length_drop]; omega) (by rw [List.length_drop]; omega)]

theorem headerLoop_local (cb : Cb) (b : List UInt8) : ∀ (f : Nat) (st : St) (a : List UInt8), a.length < f → ∀ g, (a ++ b).length < g →
    (¬ Pending (headerLoop cb f st a) → headerLoop cb g st (a ++ b) = { headerLoop cb f st a with rest := (headerLoop cb f st a).rest ++ b }) ∧
    (Pending (headerLoop cb f st a) → headerLoop cb g st (a ++ b) = (headerLoop cb g (headerLoop cb f st a).st ((headerLoop cb f st a).rest ++ b)).pre (headerLoop cb f st a).evs ∧
      (headerLoop cb f st a).rest.length ≤ a.length)
  | 0, _, _, h, _, _ => absurd h (by omega)
  | _ + 1, _, _, _, 0, h => absurd h (by omega)
  | f + 1, st, a, h, g + 1, h' => by
    rw [headerLoop]
    by_cases hp : crlf.isPrefixOf a = true
    · rw [if_pos hp]
      have := prefix_len hp
      simp only [crlf, List.length_cons, List.length_nil] at this
      refine ⟨fun _ => ?_, fun hq => absurd hq.2 (by simp)⟩
      rw [headerLoop, if_pos (prefix_append hp b)]
      simp only
      rw [List.drop_append_of_le_length (by omega)]
    · rw [if_neg hp]
      obtain ⟨k, hk, _, _⟩ := until_crlf a
      rw [hk]
      match k, hk with
      | 0, hk =>
        refine ⟨fun hq => absurd ⟨rfl, rfl⟩ hq, fun _ => ⟨?_, Nat.le_refl _⟩⟩
        simp
      | n + 1, hk =>
        obtain ⟨h1, h2, _, h3⟩ := until_append hk b
        have ht : (a ++ b).take (n + 1) = a.take (n + 1) := List.take_append_of_le_length (by omega)
        have hd : (a ++ b).drop (n + 3) = a.drop (n + 3) ++ b := List.drop_append_of_le_length (by omega)
        have e : headerLoop cb (g + 1) st (a ++ b) = if (headerLine cb st (a.take (n + 1))).1 ≠ .ok then
            ⟨(headerLine cb st (a.take (n + 1))).1, false, (headerLine cb st (a.take (n + 1))).2.1, a.drop (n + 3) ++ b, (headerLine cb st (a.take (n + 1))).2.2⟩
            else (headerLoop cb g (headerLine cb st (a.take (n + 1))).2.1 (a.drop (n + 3) ++ b)).pre (headerLine cb st (a.take (n + 1))).2.2 := by
          rw [headerLoop, if_neg (by simp [h3]), h1]
          simp only [ht, hd, Out.pre]
        rw [e]
        simp only
        generalize headerLine cb st (a.take (n + 1)) = r at *
        by_cases hr : r.1 ≠ .ok
        · rw [if_pos hr, if_pos hr]
          exact ⟨fun _ => rfl, fun hq => absurd hq.1 hr⟩
        · rw [if_neg hr, if_neg hr]
          simp only [List.length_append] at h'
          have hl : (a.drop (n + 3)).length < f := by rw [List.length_drop]; omega
          have hl' : (a.drop (n + 3) ++ b).length < g := by rw [List.length_append, List.length_drop]; omega
          obtain ⟨i1, i2⟩ := headerLoop_local cb b f r.2.1 (a.drop (n + 3)) hl g hl'
          refine ⟨fun hq => ?_, fun hq => ?_⟩
          · rw [i1 hq]; rfl
          · obtain ⟨i3, i4⟩ := i2 hq
            rw [List.length_drop] at i4
            refine ⟨?_, by simp only; omega⟩
            rw [i3, Out.pre_pre]
            simp only
            rw [headerLoop_fuel cb g (g + 1) _ _ (by rw [List.length_append]; omega) (by rw [List.length_append]; omega)]

theorem headerLoop_nil (cb : Cb) (f : Nat) (st : St) : headerLoop cb (f + 1) st [] = ⟨.ok, false, st, [], []⟩ := by
  rw [headerLoop, if_neg (by decide)]
  rfl

theorem readHeader_eq (cb : Cb) (st : St) (p : List UInt8) (f : Nat) (h : p.length < f) : readHeader cb st p = headerLoop cb f st p := by
  unfold readHeader
  by_cases hp : p = []
  · subst hp
    cases f with
    | zero => simp at h
    | succ f => rw [if_pos rfl, headerLoop_nil]
  · rw [if_neg hp]; exact headerLoop_fuel cb _ _ _ _ (by omega) h

theorem readHeader_local (cb : Cb) (st : St) (a b : List UInt8) : Local (readHeader cb) st a b := by
  obtain ⟨h1, h2⟩ := headerLoop_local cb b (a.length + 1) st a (by omega) ((a ++ b).length + 1) (by omega)
  have e := readHeader_eq cb st a (a.length + 1) (by omega)
  have e' := readHeader_eq cb st (a ++ b) ((a ++ b).length + 1) (by omega)
  refine ⟨fun hp => ?_, fun hp => ?_⟩
  · rw [e', e]; rw [e] at hp; exact h1 hp
  · rw [e', e]; rw [e] at hp
    obtain ⟨h3, h4⟩ := h2 hp
    rw [readHeader_eq cb _ ((headerLoop cb (a.length + 1) st a).rest ++ b) ((a ++ b).length + 1) (by simp only [List.length_append]; omega)]
    exact .of_eq h3

/-! ### Lines -/

theorem readStartLine_local (cb : Cb) (uriOk : List UInt8 → Bool) (st : St) (a b : List UInt8) : Local (readStartLine cb uriOk) st a b := by
  by_cases ha : a = []
  · exact .idle (by rw [readStartLine, if_pos ha]) b
  obtain ⟨k, hk, _, _⟩ := until_crlf a
  match k, hk with
  | 0, hk => exact .idle (by rw [readStartLine, if_neg ha, hk]) b
  | n + 1, hk =>
    obtain ⟨h1, h2, _, _⟩ := until_append hk b
    have e : readStartLine cb uriOk st (a ++ b) = { readStartLine cb uriOk st a with rest := (readStartLine cb uriOk st a).rest ++ b } := by
      rw [readStartLine, readStartLine, if_neg ha, if_neg (by simp [ha]), hk, h1]
      simp only [List.take_append_of_le_length (show n + 1 ≤ a.length by omega), List.drop_append_of_le_length (show n + 3 ≤ a.length by omega)]
    refine ⟨fun _ => e, fun hp => ?_⟩
    have := hp.2
    rw [readStartLine, if_neg ha, hk] at this
    simp at this

theorem readChunkStart_local (cb : Cb) (st : St) (a b : List UInt8) : Local (readChunkStart cb) st a b := by
  by_cases ha : a = []
  · exact .idle (by rw [readChunkStart, if_pos ha]) b
  obtain ⟨k, hk, _, _⟩ := until_crlf a
  match k, hk with
  | 0, hk => exact .idle (by rw [readChunkStart, if_neg ha, hk]) b
  | n + 1, hk =>
    obtain ⟨h1, h2, _, _⟩ := until_append hk b
    have e : readChunkStart cb st (a ++ b) = { readChunkStart cb st a with rest := (readChunkStart cb st a).rest ++ b } := by
      rw [readChunkStart, readChunkStart, if_neg ha, if_neg (by simp [ha]), hk, h1]
      simp only [List.take_append_of_le_length (show n + 1 ≤ a.length by omega), List.drop_append_of_le_length (show n + 3 ≤ a.length by omega)]
    refine ⟨fun _ => e, fun hp => ?_⟩
    have h3 := hp.2
    have h4 := hp.1
    rw [readChunkStart, if_neg ha, hk] at h3 h4
    simp only [decide_eq_false_iff_not] at h3 h4
    exact absurd h4 h3

/-! ### Data -/

/-- The callbacks for data succeed. -/
structure Takes (cb : Cb) : Prop where
  body : ∀ d, cb (.body d) = none
  chunk : ∀ d i, cb (.chunkData d i) = none

theorem Takes.callBody {cb : Cb} (h : Takes cb) (d : List UInt8) : call cb (.body d) = .ok := by rw [call, h.body]
theorem Takes.callChunk {cb : Cb} (h : Takes cb) (d : List UInt8) (i : Nat) : call cb (.chunkData d i) = .ok := by rw [call, h.chunk]

theorem units_body (x y : List UInt8) : units [.body (x ++ y)] = units [.body x, .body y] := by simp [units, unit]
theorem units_chunk (x y : List UInt8) (i : Nat) : units [.chunkData (x ++ y) i] = units [.chunkData x i, .chunkData y i] := by simp [units, unit]
theorem units_chunk_nil (i : Nat) : units [.chunkData [] i] = [] := by simp [units, unit]

/-- The number of bytes `M_http_read_body` takes. -/
def bodyTake (st : St) (n : Nat) : Nat := if st.haveLen then min n (st.bodyLen - st.seen) else n

theorem readBody_eq {cb : Cb} (hc : Takes cb) (st : St) (p : List UInt8) (hl : ¬ (st.haveLen = true ∧ (st.bodyLen = 0 ∨ st.bodyLen = st.seen))) (hp : p ≠ []) :
    readBody cb st p = ⟨.ok, st.haveLen = true ∧ st.bodyLen = st.seen + bodyTake st p.length, { st with seen := st.seen + bodyTake st p.length },
      p.drop (bodyTake st p.length), [.body (p.take (bodyTake st p.length))]⟩ := by
  rw [readBody, if_neg hl, if_neg hp]
  simp only [hc.callBody, if_true]
  rfl

theorem readBody_local {cb : Cb} (hc : Takes cb) (st : St) (a b : List UInt8) (hb : b ≠ []) : Local (readBody cb) st a b := by
  by_cases hl : st.haveLen = true ∧ (st.bodyLen = 0 ∨ st.bodyLen = st.seen)
  · have e : ∀ p, readBody cb st p = ⟨.ok, true, st, p, []⟩ := fun p => by rw [readBody, if_pos hl]
    refine ⟨fun _ => by rw [e, e], fun hp => ?_⟩
    rw [e] at hp
    exact absurd hp.2 (by simp)
  by_cases ha : a = []
  · exact .idle (by rw [readBody, if_neg hl, if_pos ha]) b
  have e1 := readBody_eq hc st a hl ha
  have e2 := readBody_eq hc st (a ++ b) hl (by simp [ha])
  refine ⟨fun hp => ?_, fun hp => ?_⟩
  · rw [e1] at hp
    have hp : st.haveLen = true ∧ st.bodyLen = st.seen + bodyTake st a.length := by
      apply Classical.byContradiction
      intro hq
      exact hp ⟨rfl, by simpa using hq⟩
    have ht : bodyTake st (a ++ b).length = bodyTake st a.length := by
      have h1 := hp.2
      simp only [bodyTake, hp.1, if_true, List.length_append] at h1 ⊢
      omega
    have hle : bodyTake st a.length ≤ a.length := by simp only [bodyTake, hp.1, if_true]; omega
    rw [e2, e1, ht]
    simp only [List.take_append_of_le_length hle, List.drop_append_of_le_length hle]
  · have hp' : ¬ (st.haveLen = true ∧ st.bodyLen = st.seen + bodyTake st a.length) := by
      have := hp.2
      rw [e1] at this
      simpa using this
    rw [e1, e2]
    simp only
    by_cases hcase : st.haveLen = true ∧ st.bodyLen < st.seen
    · -- unreachable, but nothing is taken
      have hz : ∀ n, bodyTake st n = 0 := by intro n; simp only [bodyTake, hcase.1, if_true]; omega
      have e3 := readBody_eq hc st (a ++ b) hl (by simp [ha])
      simp only [hz, List.drop_zero, Nat.add_zero, List.take_zero] at e3 ⊢
      have hst : ({ st with seen := st.seen } : St) = st := rfl
      rw [hst, e3]
      exact ⟨rfl, rfl, rfl, rfl, by simp [Out.pre, units, unit]⟩
    · have hall : bodyTake st a.length = a.length := by
        unfold bodyTake at hp' ⊢
        by_cases hh : st.haveLen = true
        · simp only [hh, if_true, true_and] at hp' hcase ⊢
          omega
        · simp [hh]
      rw [hall]
      rw [hall] at hp'
      have hl' : ¬ (({ st with seen := st.seen + a.length } : St).haveLen = true ∧ (({ st with seen := st.seen + a.length } : St).bodyLen = 0 ∨ ({ st with seen := st.seen + a.length } : St).bodyLen = ({ st with seen := st.seen + a.length } : St).seen)) := by
        simp only
        intro hq
        exact hl ⟨hq.1, Or.inl (hq.2.resolve_right fun h => hp' ⟨hq.1, h⟩)⟩
      have e3 := readBody_eq hc { st with seen := st.seen + a.length } b hl' hb
      have hsum : bodyTake st (a ++ b).length = a.length + bodyTake { st with seen := st.seen + a.length } b.length := by
        simp only [bodyTake, List.length_append]
        by_cases hh : st.haveLen = true
        · simp only [hh, if_true, true_and] at hp' hcase ⊢
          have := hall
          simp only [bodyTake, hh, if_true] at this
          omega
        · simp [hh]
      simp only [List.drop_length, List.nil_append]
      rw [e3, hsum]
      refine ⟨rfl, ?_, ?_, ?_, ?_⟩
      · simp only [Out.pre, Nat.add_assoc]
      · simp only [Out.pre, Nat.add_assoc]
      · simp [Out.pre, List.drop_append]
      · simp only [Out.pre, List.take_length, List.singleton_append, List.take_append, List.take_of_length_le (Nat.le_add_right _ _), Nat.add_sub_cancel_left]
        exact units_body _ _

theorem readChunkData_eq {cb : Cb} (hc : Takes cb) (st : St) (p : List UInt8) (hl : st.bodyLen ≠ 0) (hp : p ≠ []) (n : Nat) (hn : n = min p.length (st.bodyLen - st.seen)) :
    readChunkData cb st p =
      if st.bodyLen = st.seen + n ∧ (p.drop n).length ≥ 2 then
        if crlf.isPrefixOf (p.drop n) then ⟨.ok, true, { st with seen := st.seen + n }, p.drop (n + 2), [.chunkData (p.take n) st.part]⟩
        else ⟨.chunkDataMalformed, false, { st with seen := st.seen + n }, p.drop n, [.chunkData (p.take n) st.part]⟩
      else ⟨.ok, false, { st with seen := st.seen + n }, p.drop n, [.chunkData (p.take n) st.part]⟩ := by
  rw [readChunkData, if_neg hl, if_neg hp]
  simp only [hc.callChunk, if_true, ← hn, List.drop_drop]

theorem readChunkData_local {cb : Cb} (hc : Takes cb) (st : St) (a b : List UInt8) (hb : b ≠ []) : Local (readChunkData cb) st a b := by
  by_cases hl : st.bodyLen = 0
  · have e : ∀ p, readChunkData cb st p = ⟨.ok, true, st, p, []⟩ := fun p => by rw [readChunkData, if_pos hl]
    refine ⟨fun _ => by rw [e, e], fun hp => ?_⟩
    rw [e] at hp
    exact absurd hp.2 (by simp)
  by_cases ha : a = []
  · exact .idle (by rw [readChunkData, if_neg hl, if_pos ha]) b
  have e1 := readChunkData_eq hc st a hl ha _ rfl
  have e2 := readChunkData_eq hc st (a ++ b) hl (by simp [ha]) _ rfl
  generalize hn : min a.length (st.bodyLen - st.seen) = n at e1
  generalize hm : min (a ++ b).length (st.bodyLen - st.seen) = m at e2
  rw [List.length_append] at hm
  by_cases hfin : st.bodyLen = st.seen + n ∧ (a.drop n).length ≥ 2
  · -- the data and the line end are there
    rw [if_pos hfin] at e1
    have hlen := hfin.2
    rw [List.length_drop] at hlen
    have hmn : m = n := by omega
    subst hmn
    have hd : (a ++ b).drop m = a.drop m ++ b := List.drop_append_of_le_length (by omega)
    have hd2 : (a ++ b).drop (m + 2) = a.drop (m + 2) ++ b := List.drop_append_of_le_length (by omega)
    have ht : (a ++ b).take m = a.take m := List.take_append_of_le_length (by omega)
    rw [hd, hd2, ht, if_pos ⟨hfin.1, by rw [List.length_append]; omega⟩, prefix_append_iff (by simpa [crlf] using hfin.2)] at e2
    refine ⟨fun _ => ?_, fun hp => ?_⟩
    · rw [e1, e2]; split <;> rfl
    · rw [e1] at hp
      split at hp
      · exact absurd hp.2 (by simp)
      · exact absurd hp.1 (by simp)
  · rw [if_neg hfin] at e1
    refine ⟨fun hp => absurd (by rw [e1]; exact ⟨rfl, rfl⟩) hp, fun _ => ?_⟩
    rw [e1]
    simp only
    have hne : a.drop n ++ b ≠ [] := by simp [hb]
    have e3 := readChunkData_eq hc { st with seen := st.seen + n } (a.drop n ++ b) hl hne (m - n) (by
      simp only [List.length_append, List.length_drop]; omega)
    have hmn : n ≤ m := by omega
    have hd : (a ++ b).drop m = (a.drop n ++ b).drop (m - n) := by
      rw [← List.drop_append_of_le_length (by omega), List.drop_drop, Nat.add_sub_cancel' hmn]
    have hd2 : (a ++ b).drop (m + 2) = (a.drop n ++ b).drop (m - n + 2) := by
      rw [← List.drop_drop, hd, List.drop_drop]
    have ht : (a ++ b).take m = a.take n ++ (a.drop n ++ b).take (m - n) := by
      rw [← List.drop_append_of_le_length (by omega), ← List.take_append_of_le_length (l₂ := b) (show n ≤ a.length by omega)]
      have := List.take_add (l := a ++ b) (i := n) (j := m - n)
      rw [Nat.add_sub_cancel' hmn] at this
      exact this
    have hs : st.seen + n + (m - n) = st.seen + m := by omega
    rw [hs] at e3
    rw [e2, e3, hd, hd2, ht]
    simp only
    split
    · split <;> exact ⟨rfl, rfl, rfl, rfl, units_chunk _ _ _⟩
    · exact ⟨rfl, rfl, rfl, rfl, units_chunk _ _ _⟩

end Verif.Http
