import Verif.Json.WriteProps
/-! C47, C48: JSON strings and documents round-trip.  Property theorems; the grammar is in `Spec`. -/
namespace Verif.Json
open Verif.Num (digitVal value)
open Verif.Utf8 (utf8 Scalar Allowed flat)
open Verif.Decimal (Dec)

/-! ### C47 -/

/-- Reading the text of a string gives back the string.  Missing: characters above 0xFFFF when the writer escapes
(`string_roundtrip_fails`), characters the library does not allow. -/
theorem string_roundtrip_partial (fl : WFlags) (rf : RFlags) (hrf : rf.dontDecode = false) (s : List UInt8) (cps : List Nat) (hs : s = flat cps)
    (hc : ∀ cp ∈ cps, Allowed cp ∧ cp ≠ 0 ∧ (fl.dontEncode = true ∨ cp ≤ 0xFFFF)) (after rest : List UInt8) :
    ∃ t, wStr fl s = some (some (34 :: t)) ∧ readString rf after (t ++ rest) = some (.ok (s, rest)) := by
  obtain ⟨t, h1, h2⟩ := wStr_ok (fl := fl) (s := s) ⟨cps, hs, hc⟩
  refine ⟨t ++ [34], h1, ?_⟩
  have := readString_body (fl := rf) hrf after h2 rest
  simpa using this

/-- `a"é` followed by a control character. -/
example : ∃ cps, ([97, 34, 195, 169, 1] : List UInt8) = flat cps ∧ ∀ cp ∈ cps, Allowed cp ∧ cp ≠ 0 ∧ (false = true ∨ cp ≤ 0xFFFF) :=
  ⟨[97, 34, 233, 1], by decide +kernel⟩

/-- What the writer writes for such a string is a string of RFC 8259 that stands for it. -/
theorem string_rfc_partial (fl : WFlags) (s : List UInt8) (cps : List Nat) (hs : s = flat cps)
    (hc : ∀ cp ∈ cps, Allowed cp ∧ cp ≠ 0 ∧ (fl.dontEncode = true ∨ cp ≤ 0xFFFF)) : ∃ t, wStr fl s = some (some (34 :: (t ++ [34]))) ∧ rfc.str t s := by
  obtain ⟨t, h1, h2⟩ := wStr_ok (fl := fl) (s := s) ⟨cps, hs, hc⟩
  refine ⟨t, h1, ?_⟩
  show StrBody _ _ t s
  clear h1 hs
  induction h2 with
  | nil => exact .nil
  | plain hs h1 h2 h3 _ ih => exact .plain hs h1 h2 h3 ih
  | two he _ ih => exact .two he ih
  | uni hx hs _ _ ih => exact .uni hx hs trivial ih
  | pair hp => exact hp.elim

/-- U+1F600 is written with five digits, `\u1F600`, which is read as U+1F60 and a zero. -/
theorem string_roundtrip_fails : flat [0x1F600] = [240, 159, 152, 128] ∧ wStr {} [240, 159, 152, 128] = some (some [34, 92, 117, 49, 70, 54, 48, 48, 34]) ∧
    (readString {} [0] [92, 117, 49, 70, 54, 48, 48, 34] = some (.ok ([225, 189, 160, 48], []))) := by
  refine ⟨by decide +kernel, by decide +kernel, ?_⟩
  decide +kernel

/-! ### C48 -/

/-- Reading the text of a document gives back the document.  Missing: names with characters that need an escape and empty names
(`key_fails`, `key_empty_fails`), integers and decimals beyond those of JavaScript (`int_fails`, `int_nocompat_fails`), strings as
for C47. -/
theorem json_roundtrip_partial (fl : WFlags) (rf : RFlags) (hrf : rf.dontDecode = false) (v : Json) (hv : OkJson fl v) (hr : Root v) (whole : Bool)
    (after : List UInt8) : ∃ t, write fl 0 v = some (some t) ∧ read rf whole after t = some (.ok (v, 0)) := by
  obtain ⟨t, h1, h2⟩ := write_val fl rf 0 v hv
  refine ⟨t, h1, read_doc hrf ⟨[], t, [], by simp, skip_nil rf, skip_nil rf, h2, hr⟩ whole after⟩

/-- `{"k": [1, -2.5, "x"], "m": null}`. -/
def sample : Json := .obj [([107], .arr [.int 1, .dec ⟨-25, 1⟩, .str [120]]), ([109], .null)]

example : OkJson {} sample ∧ Root sample := by
  have h1 : OkKey [107] := ⟨[107], by decide +kernel⟩
  have h2 : OkKey [109] := ⟨[109], by decide +kernel⟩
  have h3 : OkStr {} [120] := ⟨[120], by decide +kernel, by intro cp h; simp at h; subst h; unfold OkChar; decide +kernel⟩
  have h4 : OkInt 1 := by unfold OkInt; decide
  have h5 : OkDec {} ⟨-25, 1⟩ := by unfold OkDec; decide
  simp [sample, OkJson, OkElems, OkMembers, Root, h1, h2, h3, h4, h5]

/-- Grammars that are part of others. -/
structure Grammar.Le (G H : Grammar) : Prop where
  skip : ∀ w, G.skip w → H.skip w
  sep : ∀ w, G.sep w → H.sep w
  str : ∀ t s, G.str t s → H.str t s
  num : ∀ t v, G.num t v → H.num t v
  build : ∀ m l, G.build m l → H.build m l

theorem Val.mono {G H : Grammar} (le : G.Le H) {t : List UInt8} {v : Json} (h : Val G t v) : Val H t v :=
  Val.rec (motive_1 := fun t v _ => Val H t v) (motive_2 := fun t l _ => Elems H t l) (motive_3 := fun t l _ => Members H t l)
    .null .tru .fls (fun h => .num (le.num _ _ h)) (fun h => .str (le.str _ _ h)) (fun h => .arr0 (le.skip _ h)) (fun _ h => .arr h)
    (fun h => .obj0 (le.skip _ h)) (fun _ hb h => .obj h (le.build _ _ hb))
    (fun ha _ hb h => .one (le.skip _ ha) h (le.skip _ hb))
    (fun ha _ hb hs _ h hu => .cons (le.skip _ ha) h (le.skip _ hb) (le.sep _ hs) hu)
    (fun ha hk hb hc _ hd h => .one (le.skip _ ha) (le.str _ _ hk) (le.skip _ hb) (le.skip _ hc) h (le.skip _ hd))
    (fun ha hk hb hc _ hd hs _ h hu => .cons (le.skip _ ha) (le.str _ _ hk) (le.skip _ hb) (le.skip _ hc) h (le.skip _ hd) (le.sep _ hs) hu) h

theorem readable_rfc : (readable { noComments := true }).Le rfc where
  skip w h := by
    simp only [readable, if_true] at h
    exact h
  sep w h := h
  str t s h := by
    change StrBody _ _ t s at h
    show StrBody _ _ t s
    induction h with
    | nil => exact .nil
    | plain hs h1 h2 h3 _ ih => exact .plain hs h1 h2 h3 ih
    | two he _ ih => exact .two he ih
    | uni hx hs _ _ ih => exact .uni hx hs trivial ih
    | pair hp => exact hp.elim
  num t v h := by
    obtain ⟨p, h1, h2, h3, _⟩ := h
    exact ⟨p, h1, h2, h3⟩
  build m l h _ := h.1

/-- What the writer writes for such a document is a text of RFC 8259 that stands for it. -/
theorem write_rfc_partial (fl : WFlags) (v : Json) (hv : OkJson fl v) (hr : Root v) : ∃ t, write fl 0 v = some (some t) ∧ Doc rfc t v := by
  obtain ⟨t, h1, h2⟩ := write_val fl { noComments := true } 0 v hv
  exact ⟨t, h1, [], t, [], by simp, .nil, .nil, h2.mono readable_rfc, hr⟩

/-- A name with a quote is written without an escape: `{"a"b":null}`. -/
theorem key_fails : write {} 0 (.obj [([97, 34, 98], .null)]) = some (some [123, 34, 97, 34, 98, 34, 58, 110, 117, 108, 108, 125]) ∧
    read {} true [0] [123, 34, 97, 34, 98, 34, 58, 110, 117, 108, 108, 125] = some (.error .missingPairSeparator) := ⟨by decide +kernel, by rfl⟩

/-- A member with an empty name is written and not read back. -/
theorem key_empty_fails : write {} 0 (.obj [([], .null)]) = some (some [123, 34, 34, 58, 110, 117, 108, 108, 125]) ∧
    read {} true [0] [123, 34, 34, 58, 110, 117, 108, 108, 125] = some (.ok (.obj [], 0)) := ⟨by decide +kernel, by rfl⟩

/-- The integer 9007199254740992 is read back as a string. -/
theorem int_fails : write {} 0 (.arr [.int 9007199254740992]) =
      some (some [91, 34, 57, 48, 48, 55, 49, 57, 57, 50, 53, 52, 55, 52, 48, 57, 57, 50, 34, 93]) ∧
    read {} true [0] [91, 34, 57, 48, 48, 55, 49, 57, 57, 50, 53, 52, 55, 52, 48, 57, 57, 50, 34, 93] =
      some (.ok (.arr [.str [57, 48, 48, 55, 49, 57, 57, 50, 53, 52, 55, 52, 48, 57, 57, 50]], 0)) := ⟨by decide +kernel, by rfl⟩

/-- Without compatibility the same integer gets a closing quote only, and the text is refused. -/
theorem int_nocompat_fails : write { noCompat := true } 0 (.arr [.int 9007199254740992]) =
      some (some [91, 57, 48, 48, 55, 49, 57, 57, 50, 53, 52, 55, 52, 48, 57, 57, 50, 34, 93]) ∧
    read {} true [0] [91, 57, 48, 48, 55, 49, 57, 57, 50, 53, 52, 55, 52, 48, 57, 57, 50, 34, 93] = some (.error .unclosedString) := ⟨by decide +kernel, by rfl⟩

/-- Writing -922337203685477580.8 has undefined behaviour: the rounding takes the absolute value of the smallest integer. -/
theorem dec_min_fails : write {} 0 (.arr [.dec ⟨-9223372036854775808, 1⟩]) = none := by decide +kernel

end Verif.Json
