import Verif.Http.WriterLemmas
import Verif.Http.FrameProps
import Verif.Str.Props
/- The steps of the writers, for C87. -/
namespace Verif.Http.Frame
open Verif.Chr (isSpace toLower)
open Verif.Str (NoOuter join)

theorem dict_eq {hs : List Hdr} (hg : ∀ h ∈ hs, h.Good) (k : List UInt8) : dictGet (hs.map stored) k = (lookup hs k).map fun h => some h.text := by
  rw [dictGet, lookup_spec]
  cases hl : lookup hs k with
  | none => rfl
  | some y =>
    simp only [Option.map_some, stored, Option.bind_some]
    rw [headerText_eq (hg y (lookup_some hl).1)]

theorem get_eq {hs : List Hdr} (hg : ∀ h ∈ hs, h.Good) (k : List UInt8) : getHeader (hs.map stored) k = (lookup hs k).map (·.text) := by
  rw [getHeader, lookup_spec]
  cases hl : lookup hs k with
  | none => rfl
  | some y => exact headerText_eq (hg y (lookup_some hl).1)

theorem lookup_mem {hs : List Hdr} (hd : Distinct hs) {h : Hdr} (hm : h ∈ hs) {n : List UInt8} (ha : Alike h.name n) : lookup hs n = some h := by
  cases hl : lookup hs n with
  | none => exact absurd ha (lookup_none.1 hl h hm)
  | some y =>
    obtain ⟨h1, h2⟩ := lookup_some hl
    rw [distinct_eq hd h1 hm (h2.trans ha.symm)]

theorem without_none {hs : List Hdr} {n : List UInt8} (h : lookup hs n = none) : without n hs = hs := by
  rw [without, List.filter_eq_self]
  intro a ha
  simpa using lookup_none.1 h a ha

theorem alike_is {a b : List UInt8} {c : List UInt8} (h : c.map toLower = b) : Alike a c ↔ Is a b := by
  unfold Alike Is; rw [h]

theorem alike_length {a : List UInt8} : Alike a cLength ↔ Is a nLength := alike_is (by decide)
theorem alike_type {a : List UInt8} : Alike a cType ↔ Is a nType := alike_is (by decide)
theorem alike_date {a : List UInt8} : Alike a cDate ↔ Is a nDate := alike_is (by decide)
theorem alike_encoding {a : List UInt8} : Alike a kEncoding ↔ Is a nEncoding := alike_is (by decide)

/-- What holds of the headers at each step. -/
structure Ok (hs : List Hdr) : Prop where
  good : ∀ h ∈ hs, h.Good
  distinct : Distinct hs

theorem Ok.set {hs : List Hdr} (h : Ok hs) {x : Hdr} (hx : x.Good) : setHeader (hs.map stored) x.name x.text false = some (true, (without x.name hs ++ [x]).map stored) ∧ Ok (without x.name hs ++ [x]) := by
  obtain ⟨h1, h2, h3⟩ := op_step h.good h.distinct (op := .set x) hx
  exact ⟨h1, h2, h3⟩

theorem Ok.orElse {hs : List Hdr} (h : Ok hs) {x : Hdr} (hx : x.Good) : Ok (orElse x hs) := by
  unfold Frame.orElse
  split
  · exact h
  · next hn =>
    have := (h.set hx).2
    rwa [without_none (by simpa using hn)] at this

theorem orElse_set {hs : List Hdr} (h : Ok hs) {x : Hdr} (hx : x.Good) (hn : lookup hs x.name = none) : setHeader (hs.map stored) x.name x.text false = some (true, (orElse x hs).map stored) := by
  rw [(h.set hx).1, without_none hn, Frame.orElse, if_neg (by simp [hn])]

theorem mem_orElse {x h : Hdr} {hs : List Hdr} : h ∈ orElse x hs ↔ h ∈ hs ∨ (lookup hs x.name = none ∧ h = x) := by
  unfold Frame.orElse
  split
  · next hs' => 
    obtain ⟨y, hy⟩ := Option.isSome_iff_exists.1 hs'
    simp [hy]
  · next hn =>
    have : lookup hs x.name = none := by simpa using hn
    simp [this]

theorem lookup_orElse {x : Hdr} {hs : List Hdr} {n : List UInt8} (h : ¬ Alike x.name n) : lookup (orElse x hs) n = lookup hs n := by
  unfold Frame.orElse
  split
  · rfl
  · unfold lookup
    rw [List.find?_append]
    simp [h]

theorem orElse_lookup {x : Hdr} {hs : List Hdr} (h : Alike x.name n) : lookup (orElse x hs) n = some ((lookup hs n).getD x) := by
  have e : lookup hs x.name = lookup hs n := by
    unfold lookup
    congr 1
    funext y
    simp only [decide_eq_decide]
    exact ⟨fun hh => hh.trans h, fun hh => hh.trans h.symm⟩
  unfold Frame.orElse
  rw [e]
  cases hl : lookup hs n with
  | some y => simp [hl]
  | none =>
    simp only [Option.isSome_none, Bool.false_eq_true, if_false, Option.getD_none]
    unfold lookup at hl ⊢
    rw [List.find?_append, hl]
    simp [h]

section
variable {us : List Hdr} {ct : Option Hdr} {cs body : List UInt8}

theorem Input.ok (h : Input us ct cs body) : Ok us := ⟨h.good, h.distinct⟩

/-- The length. -/
theorem length_step (h : Input us ct cs body) {data : Option (List UInt8)} {len : Nat} (hd : Data (lookup us cLength).isSome cs data len body) :
    writeLength (us.map stored) data len cs = some (some (body.length, (orElse (one cLength (decimal body.length)) us).map stored)) := by
  unfold writeLength
  rw [show kLength = cLength from rfl, dict_eq h.good]
  cases hl : lookup us cLength with
  | some y =>
    obtain ⟨h1, h2⟩ := lookup_some hl
    obtain ⟨_, ⟨d, h3, h4⟩, h5⟩ := h.length y h1 (alike_length.1 h2)
    have ht : y.text = d := by rw [Hdr.text, Field.text, h3]; rfl
    simp only [Option.map_some, Option.getD_some, ht]
    rw [int64_digits (by omega) h4 h5 [0]]
    simp only
    have e : orElse (one cLength (decimal body.length)) us = us := by
      unfold Frame.orElse
      rw [if_pos (by show (lookup us cLength).isSome = true; rw [hl]; rfl)]
    rw [if_neg (by omega), e]
    rw [hl] at hd
    cases hd with
    | null => simp
    | bytes => simp
    | text h0 => simp at h0
  | none =>
    rw [hl] at hd
    have hlen : dataLength data len cs = some body.length := by
      unfold dataLength
      cases hd with
      | null => rfl
      | @bytes _ rest hc =>
        by_cases hcs : cs = []
        · simp [hcs]
        · simp only [hcs, if_false]
          cases body with
          | nil =>
            simp only [Option.isSome_none, Bool.false_eq_true, hcs, ne_eq, not_true_eq_false, false_or] at hc
            cases rest with
            | nil => simp at hc
            | cons c r => simp at hc; simp [hc]
          | cons c b => simp
      | @text _ rest h0 h1 h2 h3 =>
        simp only [h1, if_false]
        cases body with
        | nil => exact absurd rfl h2
        | cons c b =>
          have hc : c ≠ 0 := fun hh => h3 (by simp [hh])
          simp only [List.cons_append, hc, if_false, if_true]
          exact Str.strlen_str (c :: b) rest h3
    simp only [Option.map_none]
    rw [hlen, Option.bind_some]
    have := orElse_set h.ok (good_length (decimal_digits body.length)) hl
    rw [text_one] at this
    rw [show cLength = (one cLength (decimal body.length)).name from rfl, this]
    rfl

/-- The headers after the type was set. -/
def typed (us : List Hdr) (d : List UInt8) (ct : Option Hdr) (cs : List UInt8) : List Hdr :=
  match ct with
  | some t => without cType (orElse (one cLength d) us) ++ [t]
  | none => orElse (defaultType cs) (orElse (one cLength d) us)

theorem Input.ok1 (h : Input us ct cs body) {n : Nat} {d : List UInt8} (hd : Digits 10 d n) : Ok (orElse (one cLength d) us) := h.ok.orElse (good_length hd)

theorem type_step (h : Input us ct cs body) {n : Nat} {d : List UInt8} (hd : Digits 10 d n) :
    writeType ((orElse (one cLength d) us).map stored) (dictGet (us.map stored) kType).isSome ((ct.map (·.text)).getD []) cs = some ((typed us d ct cs).map stored) ∧ Ok (typed us d ct cs) := by
  have ok1 := h.ok1 hd
  rw [show kType = cType from rfl, dict_eq h.good]
  unfold typed writeType
  cases ct with
  | some t =>
    obtain ⟨e, ht⟩ := h.typeName t rfl
    obtain ⟨h1, h2⟩ := ok1.set ht
    rw [e] at h1 h2
    simp only [Option.map_some, Option.getD_some]
    rw [if_pos ht.text_ne, show kType = cType from rfl, h1]
    exact ⟨rfl, h2⟩
  | none =>
    refine ⟨?_, ok1.orElse (good_default cs)⟩
    simp only [Option.map_none, Option.getD_none, ne_eq, not_true_eq_false, if_false]
    have hl := lookup_orElse (x := one cLength d) (hs := us) (n := cType) (show ¬ Alike cLength cType by decide)
    cases hu : lookup us cType with
    | some y =>
      simp only [Option.map_some, Option.isSome_some, if_true]
      rw [hu] at hl
      rw [show orElse (defaultType cs) (orElse (one cLength d) us) = orElse (one cLength d) us by
        conv => lhs; unfold Frame.orElse
        exact if_pos (by show (lookup (orElse (one cLength d) us) cType).isSome = true; rw [hl]; rfl)]
    | none =>
      simp only [Option.map_none, Option.isSome_none, Bool.false_eq_true, if_false]
      have := orElse_set ok1 (good_default cs) (by rw [← hu, ← hl]; rfl)
      rw [show (defaultType cs).name = cType from rfl, show (defaultType cs).text = if cs = [] then vOctets else vText by
        unfold defaultType; rw [text_one]; rfl] at this
      rw [show kType = cType from rfl, this]
      rfl

/-- The type is there. -/
theorem typed_lookup (h : Input us ct cs body) {d : List UInt8} : lookup (typed us d ct cs) cType = some (baseType us ct cs) := by
  unfold typed baseType
  cases ct with
  | some t =>
    have e := (h.typeName t rfl).1
    simp only [Option.getD_some]
    have := lookup_without cType (orElse (one cLength d) us)
    unfold lookup at this ⊢
    rw [List.find?_append, this]
    simp [e, Alike]
  | none =>
    simp only [Option.getD_none]
    rw [orElse_lookup (show Alike (defaultType cs).name cType from rfl), lookup_orElse (show ¬ Alike cLength cType by decide)]

theorem base_good (h : Input us ct cs body) : (baseType us ct cs).Good ∧ (baseType us ct cs).field.whole := by
  have ht := type_step h (decimal_digits 0)
  obtain ⟨h1, h2⟩ := lookup_some (typed_lookup h (d := decimal 0))
  refine ⟨ht.2.good _ h1, .inr (.inr (.inl (alike_type.1 h2)))⟩

/-- What is known of the character set. -/
theorem charset_facts (h : Input us ct cs body) (hne : cs ≠ []) : NoOuter cs ∧ ∀ c ∈ cs, c ≠ 0 ∧ c ≠ 59 ∧ c ≠ 61 := by
  obtain ⟨hg, hw⟩ := base_good h
  obtain ⟨p, hp, _⟩ := whole_one hg hw
  have ht := h.type
  have e : ((baseType us ct cs).withCharset cs) = ⟨(baseType us ct cs).name, [⟨p.value, charsetMods cs p.mods⟩]⟩ := by
    unfold Hdr.withCharset; rw [if_neg hne, hp]; rfl
  rw [e] at ht
  have hpg := ht.part _ (List.mem_singleton.2 rfl)
  have hm : ∃ k, (k, cs) ∈ charsetMods cs p.mods := by
    unfold charsetMods
    split
    · next hx =>
      obtain ⟨m, hm, ha⟩ := hx
      exact ⟨m.1, List.mem_map.2 ⟨m, hm, by rw [if_pos ha]⟩⟩
    · exact ⟨cCharset, by simp⟩
  obtain ⟨k, hk⟩ := hm
  refine ⟨(hpg.modOuter _ hk).2, fun c hc => ⟨?_, hpg.modByte _ hk c (by simp [hc])⟩⟩
  apply part_bytes ht _ (List.mem_singleton.2 rfl)
  rw [partText_eq]
  refine mem_join (p := modSpec (k, cs)) (List.mem_cons_of_mem _ (List.mem_map_of_mem hk)) ?_
  unfold modSpec
  rw [if_neg hne]
  simp [hc]

/-- The type gets its character set. -/
def charsetAll (cs : List UInt8) (hs : List Hdr) : List Hdr := hs.map fun h => if Alike h.name cType then h.withCharset cs else h

theorem name_charset (cs : List UInt8) (h : Hdr) : (h.withCharset cs).name = h.name := by
  unfold Hdr.withCharset; split <;> rfl

theorem charsetAll_ok {hs : List Hdr} (h : Ok hs) (ht : ∀ x ∈ hs, Alike x.name cType → (x.withCharset cs).Good) : Ok (charsetAll cs hs) := by
  refine ⟨?_, ?_⟩
  · intro x hx
    obtain ⟨y, hy, rfl⟩ := List.mem_map.1 hx
    split
    · next ha => exact ht y hy ha
    · exact h.good y hy
  · unfold charsetAll Distinct
    rw [List.pairwise_map]
    refine h.distinct.imp ?_
    intro a b hab
    split <;> split <;> simpa only [name_charset] using hab

theorem charset_step (h : Input us ct cs body) {n : Nat} {d : List UInt8} (hd : Digits 10 d n) :
    writeCharset ((typed us d ct cs).map stored) cs = some ((charsetAll cs (typed us d ct cs)).map stored) ∧ Ok (charsetAll cs (typed us d ct cs)) := by
  have ok2 := (type_step h hd).2
  have hl := typed_lookup h (d := d)
  obtain ⟨hm, ha⟩ := lookup_some hl
  refine ⟨?_, charsetAll_ok ok2 fun x hx hxa => by rw [distinct_eq ok2.distinct hx hm (hxa.trans ha.symm)]; exact h.type⟩
  unfold writeCharset
  split
  · next hc =>
    congr 1
    unfold charsetAll
    rw [List.map_map]
    apply List.map_congr_left
    intro x _
    simp [Hdr.withCharset, hc]
  · next hne =>
    obtain ⟨hg, hw⟩ := base_good h
    obtain ⟨ho, hb⟩ := charset_facts h hne
    have hu := update_charset hg hw hne ho hb
    have hlen := h.charset
    rw [show kType = cType from rfl, get_eq ok2.good, hl, List.take_of_length_le (by simp only [List.length_append, vCharset, List.length_cons, List.length_nil]; omega)]
    simp only [Option.map_some, Option.getD_some]
    rw [addHeader, if_neg (by simp [cType]), setHeader, if_neg (by decide)]
    simp only [if_true]
    rw [if_neg (by simp), setHeaders]
    simp only [if_true, List.foldlM_cons, List.foldlM_nil]
    rw [mergeOne]
    simp only [lookup_spec, hl, Option.map_some, stored]
    rw [hu]
    simp only [Option.map_some, Option.bind_eq_bind, Option.bind_some, Option.pure_def, Option.some.injEq]
    unfold charsetAll
    rw [List.map_map, List.map_map]
    apply List.map_congr_left
    intro x hx
    simp only [Function.comp, show (stored x).1 = x.name from rfl]
    by_cases hxa : Alike x.name cType
    · have hxe := distinct_eq ok2.distinct hx hm (hxa.trans ha.symm)
      rw [if_pos (same_iff.2 hxa), if_pos hxa, hxe]
      simp [stored, name_charset]
    · rw [if_neg (by rw [same_iff]; exact hxa), if_neg hxa]

theorem expected_eq (d date : List UInt8) : expected us d ct cs date = orElse (one cDate date) (charsetAll cs (typed us d ct cs)) := by
  unfold expected typed charsetAll
  cases ct <;> rfl

theorem date_lookup (h : Input us ct cs body) {d : List UInt8} : (lookup (charsetAll cs (typed us d ct cs)) cDate).isSome = (lookup us cDate).isSome := by
  have key : ∀ hs : List Hdr, (lookup hs cDate).isSome = true ↔ ∃ x ∈ hs, Alike x.name cDate := by
    intro hs
    simp [lookup]
  have hdt : ∀ {n}, Alike n cDate → ¬ Alike n cType := by
    intro n h1 h2
    have : Alike cDate cType := h1.symm.trans h2
    exact absurd this (by decide)
  rw [Bool.eq_iff_iff, key, key]
  constructor
  · rintro ⟨x, hx, hxa⟩
    obtain ⟨y, hy, e⟩ := List.mem_map.1 hx
    by_cases hy2 : Alike y.name cType
    · rw [if_pos hy2] at e
      rw [← e, name_charset] at hxa
      exact absurd hy2 (hdt hxa)
    · rw [if_neg hy2] at e
      subst e
      unfold typed at hy
      have len : ∀ z ∈ orElse (one cLength d) us, Alike z.name cDate → z ∈ us := by
        intro z hz hza
        rcases mem_orElse.1 hz with hz | ⟨_, e⟩
        · exact hz
        · rw [e] at hza; exact absurd (show Alike cLength cDate from hza) (by decide)
      cases ct with
      | some t =>
        rcases List.mem_append.1 hy with hy | hy
        · exact ⟨y, len y (mem_without.1 hy).1 hxa, hxa⟩
        · rw [List.mem_singleton.1 hy, (h.typeName t rfl).1] at hxa
          exact absurd hxa (by decide)
      | none =>
        rcases mem_orElse.1 hy with hy | ⟨_, e⟩
        · exact ⟨y, len y hy hxa, hxa⟩
        · rw [e] at hxa; exact absurd (show Alike cType cDate from hxa) (by decide)
  · rintro ⟨x, hx, hxa⟩
    refine ⟨x, List.mem_map.2 ⟨x, ?_, by rw [if_neg (hdt hxa)]⟩, hxa⟩
    unfold typed
    have : x ∈ orElse (one cLength d) us := mem_orElse.2 (.inl hx)
    cases ct with
    | some t => exact List.mem_append_left _ (mem_without.2 ⟨this, hdt hxa⟩)
    | none => exact mem_orElse.2 (.inl this)

theorem date_step (h : Input us ct cs body) {n : Nat} {d : List UInt8} (hd : Digits 10 d n) (now : Int) :
    ∃ dt, DateOf now dt ∧ writeDate ((charsetAll cs (typed us d ct cs)).map stored) (dictGet (us.map stored) sDate).isSome now = some ((expected us d ct cs dt).map stored) ∧ Ok (expected us d ct cs dt) := by
  have ok3 := (charset_step h hd).2
  obtain ⟨dt, h1, h2⟩ := getDate_eq now
  refine ⟨dt, h2, ?_, by rw [expected_eq]; exact ok3.orElse (good_date h2)⟩
  have hl := date_lookup h (d := d)
  rw [writeDate, show sDate = cDate from rfl, dict_eq h.good, Option.isSome_map, ← hl, expected_eq]
  split
  · next hs => unfold Frame.orElse; rw [if_pos (by exact hs)]
  · next hn =>
    have := orElse_set ok3 (good_date h2) (by cases hx : lookup (charsetAll cs (typed us d ct cs)) cDate with
      | none => exact hx
      | some _ => rw [hx] at hn; exact absurd rfl hn)
    rw [text_one] at this
    rw [h1, Option.bind_some, Option.getD_some, show cDate = (one cDate dt).name from rfl, this]
    rfl

theorem lines_eq {hs : List Hdr} (h : Ok hs) : writeLines (hs.map stored) = lines (hs.map Hdr.field) := by
  unfold writeLines lines headerKeys
  rw [List.map_map, List.flatMap_map, List.flatMap_map]
  have : ∀ l : List Hdr, (∀ x ∈ l, x ∈ hs) → l.flatMap (fun x => ((fun e : List UInt8 × Option Header => e.1) ∘ stored) x ++ [58, 32] ++ (getHeader (hs.map stored) (((fun e : List UInt8 × Option Header => e.1) ∘ stored) x)).getD [] ++ crlf) = l.flatMap (fun x => x.field.line ++ eol) := by
    intro l hl
    induction l with
    | nil => rfl
    | cons x l ih =>
      rw [List.flatMap_cons, List.flatMap_cons, ih fun y hy => hl y (by simp [hy])]
      simp only [Function.comp, stored, get_eq h.good]
      have hx := lookup_mem h.distinct (hl x (by simp)) (n := x.name) rfl
      rw [hx]
      rfl
  exact this hs fun _ hx => hx

theorem take_data {hasLength : Bool} {data : Option (List UInt8)} {len : Nat} (hd : Data hasLength cs data len body) (s : Store) : writeBody s data body.length = .ok (writeLines s ++ crlf ++ body) := by
  cases hd <;> simp [writeBody]

/-- The whole of the header and the body. -/
theorem int_eq (h : Input us ct cs body) {hs : List (List UInt8 × List UInt8)} (hset : setHeaders [] hs false = some (us.map stored)) {data : Option (List UInt8)} {len : Nat}
    (hd : Data (lookup us cLength).isSome cs data len body) (now : Int) :
    ∃ dt, DateOf now dt ∧ Ok (expected us (decimal body.length) ct cs dt) ∧
      writeInt now ((ct.map (·.text)).getD []) hs data len cs = .ok (lines ((expected us (decimal body.length) ct cs dt).map Hdr.field) ++ eol ++ body) := by
  have hdig := decimal_digits body.length
  obtain ⟨dt, h1, h2, h3⟩ := date_step h hdig now
  refine ⟨dt, h1, h3, ?_⟩
  rw [writeInt, hset]
  simp only
  have he : lookup us kEncoding = none := lookup_none.2 fun x hx ha => h.coding x hx (alike_encoding.1 ha)
  rw [if_neg (by rw [dict_eq h.good, he]; simp), length_step h hd]
  simp only
  rw [(type_step h hdig).1, Option.bind_some, (charset_step h hdig).1, Option.bind_some, h2]
  simp only
  rw [take_data hd, lines_eq h3]
  rfl

/-- What is in the header. -/
theorem mem_expected (h : Input us ct cs body) {d dt : List UInt8} {x : Hdr} (hx : x ∈ expected us d ct cs dt) :
    (x ∈ us ∧ ¬ Alike x.name cType) ∨ (lookup us cLength = none ∧ x = one cLength d) ∨ x = (baseType us ct cs).withCharset cs ∨ x = one cDate dt := by
  rw [expected_eq] at hx
  rcases mem_orElse.1 hx with hx | ⟨_, e⟩
  · obtain ⟨y, hy, rfl⟩ := List.mem_map.1 hx
    by_cases ha : Alike y.name cType
    · rw [if_pos ha]
      have hl := typed_lookup h (d := d)
      have ok2 := (type_step h (decimal_digits 0)).2
      have hyb : y = baseType us ct cs := by
        unfold typed at hy
        unfold baseType
        have len : ∀ z ∈ orElse (one cLength d) us, Alike z.name cType → z ∈ us := by
          intro z hz hza
          rcases mem_orElse.1 hz with hz | ⟨_, e⟩
          · exact hz
          · rw [e] at hza; exact absurd (show Alike cLength cType from hza) (by decide)
        cases ct with
        | some t =>
          rcases List.mem_append.1 hy with hy | hy
          · exact absurd ha (mem_without.1 hy).2
          · exact List.mem_singleton.1 hy
        | none =>
          rcases mem_orElse.1 hy with hy | ⟨hn, e⟩
          · simp only [Option.getD_none]
            rw [lookup_mem h.distinct (len y hy ha) ha]; rfl
          · simp only [Option.getD_none]
            rw [show (defaultType cs).name = cType from rfl, lookup_orElse (show ¬ Alike cLength cType by decide)] at hn
            rw [hn, e]; rfl
      rw [hyb]; exact .inr (.inr (.inl rfl))
    · rw [if_neg ha]
      have hy1 : y ∈ orElse (one cLength d) us := by
        unfold typed at hy
        cases ct with
        | some t =>
          rcases List.mem_append.1 hy with hy | hy
          · exact (mem_without.1 hy).1
          · rw [List.mem_singleton.1 hy, (h.typeName t rfl).1] at ha
            exact absurd rfl ha
        | none =>
          rcases mem_orElse.1 hy with hy | ⟨_, e⟩
          · exact hy
          · rw [e] at ha; exact absurd rfl ha
      rcases mem_orElse.1 hy1 with hy2 | ⟨hn, e⟩
      · exact .inl ⟨hy2, ha⟩
      · exact .inr (.inl ⟨hn, e⟩)
  · exact .inr (.inr (.inr e))

theorem expected_length (h : Input us ct cs body) {d dt : List UInt8} (hd : Digits 10 d body.length) : ∃ x ∈ expected us d ct cs dt, x.field.Length body.length := by
  have hnt : ∀ {n}, Alike n cLength → ¬ Alike n cType := by
    intro n h1 h2
    exact absurd (show Alike cLength cType from h1.symm.trans h2) (by decide)
  have key : ∀ x ∈ orElse (one cLength d) us, Alike x.name cLength → x ∈ expected us d ct cs dt := by
    intro x hx ha
    rw [expected_eq]
    refine mem_orElse.2 (.inl (List.mem_map.2 ⟨x, ?_, by rw [if_neg (hnt ha)]⟩))
    unfold typed
    cases ct with
    | some t => exact List.mem_append_left _ (mem_without.2 ⟨hx, hnt ha⟩)
    | none => exact mem_orElse.2 (.inl hx)
  cases hl : lookup us cLength with
  | some y =>
    obtain ⟨h1, h2⟩ := lookup_some hl
    exact ⟨y, key y (mem_orElse.2 (.inl h1)) h2, h.length y h1 (alike_length.1 h2)⟩
  | none =>
    refine ⟨one cLength d, key _ (mem_orElse.2 (.inr ⟨hl, rfl⟩)) rfl, alike_length.1 rfl, ⟨d, rfl, hd⟩, h.small⟩

theorem inert_other {f : Field} (h1 : ¬ Is f.name nLength) (h2 : ¬ Is f.name nEncoding) (h3 : ¬ Is f.name nType) : f.Inert := ⟨h1, h2, fun hh => absurd hh h3⟩

/-- One field gives the length. -/
theorem expected_sized (h : Input us ct cs body) {d dt : List UInt8} (hd : Digits 10 d body.length) (hok : Ok (expected us d ct cs dt)) : Sized body.length ((expected us d ct cs dt).map Hdr.field) := by
  obtain ⟨x, hx, hxl⟩ := expected_length h (dt := dt) hd
  obtain ⟨a, b, e⟩ := List.append_of_mem hx
  have hin : ∀ y ∈ expected us d ct cs dt, ¬ Is y.name nLength → y.field.Inert := by
    intro y hy hn
    rcases mem_expected h hy with ⟨h1, h2⟩ | ⟨_, h1⟩ | h1 | h1
    · exact inert_other hn (h.coding y h1) fun hh => h2 (alike_type.2 hh)
    · rw [h1] at hn; exact absurd (alike_length.1 rfl) hn
    · rw [h1]; exact h.multi
    · rw [h1]; exact inert_other (show ¬ Is cDate nLength by decide) (show ¬ Is cDate nEncoding by decide) (show ¬ Is cDate nType by decide)
  have hdis := hok.distinct
  rw [e] at hdis
  have hp := List.pairwise_append.1 hdis
  refine ⟨a.map Hdr.field, x.field, b.map Hdr.field, by rw [e]; simp, hxl, ?_, ?_⟩
  · intro f hf
    obtain ⟨y, hy, rfl⟩ := List.mem_map.1 hf
    refine hin y (by rw [e]; simp [hy]) fun hh => hp.2.2 y hy x (by simp) ?_
    exact (alike_length.2 hh).trans (alike_length.2 hxl.1).symm
  · intro f hf
    obtain ⟨y, hy, rfl⟩ := List.mem_map.1 hf
    refine hin y (by rw [e]; simp [hy]) fun hh => (List.pairwise_cons.1 hp.2.1).1 y hy ?_
    exact (alike_length.2 hxl.1).trans (alike_length.2 hh).symm

end

end Verif.Http.Frame
