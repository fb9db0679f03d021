import Verif.Xml.Model
import Verif.Str.Props
/-! C72: what the XML escaping functions write denotes the original text, and they read back what a text denotes. -/
namespace Verif.Xml
open Verif.Str (Alike Same eqMaxInt eqMax_iff)

/-! ### Specification -/

/-- `&quot;`, `&apos;`, `&amp;`, `&gt;` and `&lt;` with the characters they stand for (XML 1.0, section 4.6). -/
inductive Named : List UInt8 → UInt8 → Prop
  | quot : Named [38, 113, 117, 111, 116, 59] 34
  | apos : Named [38, 97, 112, 111, 115, 59] 39
  | amp : Named [38, 97, 109, 112, 59] 38
  | gt : Named [38, 103, 116, 59] 62
  | lt : Named [38, 108, 116, 59] 60

/-- The value of decimal digits, most significant first. -/
def decVal (ds : List UInt8) : Nat := ds.foldl (fun n d => 10 * n + (d.toNat - 48)) 0

/-- The value of a hexadecimal digit. -/
def hexDigit (d : UInt8) : Option Nat :=
  if 48 ≤ d ∧ d ≤ 57 then some (d.toNat - 48) else if 65 ≤ d ∧ d ≤ 70 then some (d.toNat - 55) else if 97 ≤ d ∧ d ≤ 102 then some (d.toNat - 87) else none

/-- The value of hexadecimal digits, most significant first. -/
def hexVal (ds : List UInt8) : Option Nat := ds.foldl (fun n d => n.bind fun n => (hexDigit d).map (16 * n + ·)) (some 0)

/-- References to ASCII characters by name or number (XML 1.0, sections 4.1 and 4.6). -/
inductive XmlRef : List UInt8 → UInt8 → Prop
  | named {r c} (h : Named r c) : XmlRef r c
  | dec {ds : List UInt8} {c : UInt8} (h0 : ds ≠ []) (hd : ∀ d ∈ ds, 48 ≤ d ∧ d ≤ 57) (hv : decVal ds = c.toNat) (hc : 0 < c ∧ c < 128) :
      XmlRef ([38, 35] ++ ds ++ [59]) c
  | hex {ds : List UInt8} {c : UInt8} (h0 : ds ≠ []) (hv : hexVal ds = some c.toNat) (hc : 0 < c ∧ c < 128) : XmlRef ([38, 35, 120] ++ ds ++ [59]) c

/-- The text `t` denotes `s`, where the references `refs` may occur: neither `<` nor `&` occurs otherwise. -/
inductive Denotes (refs : List UInt8 → UInt8 → Prop) : List UInt8 → List UInt8 → Prop
  | nil : Denotes refs [] []
  | plain {c : UInt8} {t s : List UInt8} (h1 : c ≠ 38) (h2 : c ≠ 60) (h : Denotes refs t s) : Denotes refs (c :: t) (c :: s)
  | ref {r : List UInt8} {c : UInt8} {t s : List UInt8} (hr : refs r c) (h : Denotes refs t s) : Denotes refs (r ++ t) (c :: s)

/-- The references text is decoded with. -/
inductive TextRef : List UInt8 → UInt8 → Prop
  | named {r c} (h : Named r c) : TextRef r c
  | lf : TextRef [38, 35, 120, 65, 59] 10
  | cr : TextRef [38, 35, 120, 68, 59] 13

/-- The references attributes are decoded with. -/
inductive AttrRef : List UInt8 → UInt8 → Prop
  | quot : AttrRef [38, 113, 117, 111, 116, 59] 34
  | amp : AttrRef [38, 97, 109, 112, 59] 38
  | lt : AttrRef [38, 108, 116, 59] 60

/-! ### Lemmas -/

theorem TextRef.xml {r c} (h : TextRef r c) : XmlRef r c := by
  cases h with
  | named h => exact .named h
  | lf => exact .hex (ds := [65]) (by simp) (by decide) (by decide)
  | cr => exact .hex (ds := [68]) (by simp) (by decide) (by decide)

theorem AttrRef.xml {r c} (h : AttrRef r c) : XmlRef r c := by
  cases h
  · exact .named .quot
  · exact .named .amp
  · exact .named .lt

theorem Denotes.mono {p q : List UInt8 → UInt8 → Prop} (hpq : ∀ r c, p r c → q r c) {t s} (h : Denotes p t s) : Denotes q t s := by
  induction h with
  | nil => exact .nil
  | plain h1 h2 _ ih => exact .plain h1 h2 ih
  | ref hr _ ih => exact .ref (hpq _ _ hr) ih

/-- What one byte is written as. -/
def enc1 (t : List (UInt8 × List UInt8)) (c : UInt8) : List UInt8 :=
  match t.find? (fun e => e.1 = c) with
  | some e => e.2
  | none => [c]

theorem encodeLoop_eq (t : List (UInt8 × List UInt8)) (s : List UInt8) : ∀ pend out, encodeLoop t s pend out = out ++ pend ++ s.flatMap (enc1 t) := by
  induction s with
  | nil => intro pend out; simp [encodeLoop]
  | cons c s ih =>
    intro pend out
    simp only [encodeLoop, List.flatMap_cons, enc1]
    cases t.find? (fun e => decide (e.1 = c)) with
    | none => simp only [ih]; simp [enc1]
    | some e => simp only [ih]; simp [enc1]

theorem encodeInt_eq (t : List (UInt8 × List UInt8)) (s : List UInt8) : encodeInt t s = s.flatMap (enc1 t) := by
  simp [encodeInt, encodeLoop_eq]

theorem enc1_ent : ∀ c : UInt8, (enc1 encodeTable c = [c] ∧ c ≠ 38 ∧ c ≠ 60 ∧ c ≠ 62 ∧ c ≠ 34 ∧ c ≠ 39) ∨ Named (enc1 encodeTable c) c := by
  intro c
  by_cases h1 : c = 34
  · subst h1; exact Or.inr .quot
  by_cases h2 : c = 39
  · subst h2; exact Or.inr .apos
  by_cases h3 : c = 38
  · subst h3; exact Or.inr .amp
  by_cases h4 : c = 62
  · subst h4; exact Or.inr .gt
  by_cases h5 : c = 60
  · subst h5; exact Or.inr .lt
  refine Or.inl ⟨?_, h3, h5, h4, h1, h2⟩
  simp [enc1, encodeTable, List.find?, Ne.symm h1, Ne.symm h2, Ne.symm h3, Ne.symm h4, Ne.symm h5]

theorem enc1_attr : ∀ c : UInt8, (enc1 attrTable c = [c] ∧ c ≠ 38 ∧ c ≠ 60 ∧ c ≠ 34) ∨ AttrRef (enc1 attrTable c) c := by
  intro c
  by_cases h1 : c = 34
  · subst h1; exact Or.inr .quot
  by_cases h3 : c = 38
  · subst h3; exact Or.inr .amp
  by_cases h5 : c = 60
  · subst h5; exact Or.inr .lt
  refine Or.inl ⟨?_, h3, h5, h1⟩
  simp [enc1, attrTable, List.find?, Ne.symm h1, Ne.symm h3, Ne.symm h5]

/-- A reference is found at the start of a string. -/
theorem decode_ref (t : List (UInt8 × List UInt8)) (after : List UInt8) (x : List UInt8) (r : List UInt8) (c : UInt8) (r' : List UInt8) (hr : r = 38 :: r')
    (h0 : (0 : UInt8) ∉ r)
    (hf : ∀ y, t.find? (fun e => eqMaxInt true (r ++ y) e.2 e.2.length) = some (c, r)) : decodeLoop t after (r ++ x) 0 = c :: decodeLoop t after x 0 := by
  have hskip : ∀ (p x : List UInt8), decodeLoop t after (p ++ x) p.length = decodeLoop t after x 0 := by
    intro p
    induction p with
    | nil => intro x; rfl
    | cons a p ih => intro x; simp only [List.cons_append, List.length_cons, decodeLoop]; exact ih x
  have hc : ∀ y, cstr (r ++ y) = r ++ cstr y := by
    intro y
    simp only [cstr]
    rw [List.takeWhile_append_of_pos]
    intro a ha
    simp only [decide_eq_true_eq]
    intro e; subst e; exact h0 ha
  subst hr
  simp only [List.cons_append, decodeLoop, if_true]
  have := hc (x ++ after)
  simp only [List.cons_append, List.append_assoc] at this
  rw [List.append_assoc, this]
  have hf' := hf (cstr (x ++ after))
  simp only [List.cons_append] at hf'
  rw [hf']
  simp only [List.length_cons, Nat.add_sub_cancel, hskip]

instance (x y : UInt8) : Decidable (Same true x y) := by unfold Same; infer_instance

/-- Comparison byte by byte. -/
theorem eqMax_cons (x y : UInt8) (a b : List UInt8) (n : Nat) :
    eqMaxInt true (x :: a) (y :: b) (n + 1) = (decide (Same true x y) && eqMaxInt true a b n) := by
  rw [Bool.eq_iff_iff, Bool.and_eq_true, eqMax_iff, eqMax_iff, decide_eq_true_eq]
  simp only [List.take_succ_cons]
  constructor
  · intro h; cases h with | cons h t => exact ⟨h, t⟩
  · rintro ⟨h, t⟩; exact .cons h t

theorem eqMax_zero (a b : List UInt8) : eqMaxInt true a b 0 = true := by
  rw [eqMax_iff]; exact .nil

theorem find_text {r : List UInt8} {c : UInt8} (h : TextRef r c) (y : List UInt8) :
    decodeTable.find? (fun e => eqMaxInt true (r ++ y) e.2 e.2.length) = some (c, r) := by
  rcases h with ⟨⟨⟩⟩ | _ | _ <;>
    simp [decodeTable, List.find?, eqMax_cons, eqMax_zero, Same]

theorem find_attr {r : List UInt8} {c : UInt8} (h : AttrRef r c) (y : List UInt8) :
    attrTable.find? (fun e => eqMaxInt true (r ++ y) e.2 e.2.length) = some (c, r) := by
  rcases h with _ | _ | _ <;>
    simp [attrTable, List.find?, eqMax_cons, eqMax_zero, Same]

theorem decode_denotes {refs : List UInt8 → UInt8 → Prop} {t : List (UInt8 × List UInt8)} (after : List UInt8)
    (hf : ∀ r c, refs r c → (∃ r', r = 38 :: r') ∧ (0 : UInt8) ∉ r ∧ ∀ y, t.find? (fun e => eqMaxInt true (r ++ y) e.2 e.2.length) = some (c, r))
    {x s : List UInt8} (h : Denotes refs x s) : decodeLoop t after x 0 = s := by
  induction h with
  | nil => rfl
  | plain h1 h2 _ ih => simp only [decodeLoop, h1, if_false, ih]
  | ref hr _ ih =>
    obtain ⟨⟨r', e⟩, h0, hy⟩ := hf _ _ hr
    rw [decode_ref t after _ _ _ r' e h0 hy, ih]

theorem cstr_eq {s : List UInt8} (h : (0 : UInt8) ∉ s) : cstr s = s := by
  induction s with
  | nil => rfl
  | cons c s ih =>
    simp only [List.mem_cons, not_or] at h
    have h1 : c ≠ 0 := fun e => h.1 e.symm
    have := ih h.2
    simp only [cstr] at this ⊢
    rw [List.takeWhile_cons_of_pos (by simpa using h1), this]

/-! ### C72 -/

/-- Text decoding gives what the text denotes, if it refers to characters only by the five names or as `&#xA;` and `&#xD;`. -/
theorem entDecode_partial (after : List UInt8) {t s : List UInt8} (h : Denotes TextRef t s) (h0 : (0 : UInt8) ∉ s) : entDecode t after = s := by
  simp only [entDecode, decodeInt]
  rw [decode_denotes after (fun r c hr => ⟨?_, ?_, find_text hr⟩) h, cstr_eq h0]
  · rcases hr with ⟨⟨⟩⟩ | _ | _ <;> exact ⟨_, rfl⟩
  · rcases hr with ⟨⟨⟩⟩ | _ | _ <;> decide

/-- Attribute decoding gives what the text denotes, if it refers to characters only as `&quot;`, `&amp;` and `&lt;`. -/
theorem attrDecode_partial {t s : List UInt8} (h : Denotes AttrRef t s) (h0 : (0 : UInt8) ∉ s) : attrDecode t = s := by
  simp only [attrDecode, decodeInt]
  rw [decode_denotes [0] (fun r c hr => ⟨?_, ?_, find_attr hr⟩) h, cstr_eq h0]
  · rcases hr with _ | _ | _ <;> exact ⟨_, rfl⟩
  · rcases hr with _ | _ | _ <;> decide

theorem entEncode_text (s : List UInt8) : Denotes TextRef (entEncode s) s := by
  simp only [entEncode, encodeInt_eq]
  induction s with
  | nil => exact .nil
  | cons c s ih =>
    rw [List.flatMap_cons]
    rcases enc1_ent c with ⟨e, h1, h2, _⟩ | h
    · rw [e]; exact .plain h1 h2 ih
    · exact .ref (.named h) ih

theorem attrEncode_attr (s : List UInt8) : Denotes AttrRef (attrEncode s) s := by
  simp only [attrEncode, encodeInt_eq]
  induction s with
  | nil => exact .nil
  | cons c s ih =>
    rw [List.flatMap_cons]
    rcases enc1_attr c with ⟨e, h1, h2, _⟩ | h
    · rw [e]; exact .plain h1 h2 ih
    · exact .ref h ih

/-- Encoded text denotes the original in XML, and contains none of `<`, `>` and the quotes. -/
theorem entEncode_correct (s : List UInt8) : Denotes XmlRef (entEncode s) s ∧ ∀ c ∈ entEncode s, c ≠ 60 ∧ c ≠ 62 ∧ c ≠ 34 ∧ c ≠ 39 := by
  refine ⟨(entEncode_text s).mono fun r c => TextRef.xml, ?_⟩
  intro c hc
  simp only [entEncode, encodeInt_eq, List.mem_flatMap] at hc
  obtain ⟨b, _, hb⟩ := hc
  rcases enc1_ent b with ⟨e, h1, h2, h3, h4, h5⟩ | h
  · rw [e, List.mem_singleton] at hb; subst hb; exact ⟨h2, h3, h4, h5⟩
  · revert c
    generalize enc1 encodeTable b = r at h
    cases h <;> decide

/-- An encoded attribute value denotes the original in XML, and contains neither `<` nor the double quote that ends it. -/
theorem attrEncode_correct (s : List UInt8) : Denotes XmlRef (attrEncode s) s ∧ ∀ c ∈ attrEncode s, c ≠ 60 ∧ c ≠ 34 := by
  refine ⟨(attrEncode_attr s).mono fun r c => AttrRef.xml, ?_⟩
  intro c hc
  simp only [attrEncode, encodeInt_eq, List.mem_flatMap] at hc
  obtain ⟨b, _, hb⟩ := hc
  rcases enc1_attr b with ⟨e, h1, h2, h3⟩ | h
  · rw [e, List.mem_singleton] at hb; subst hb; exact ⟨h2, h3⟩
  · revert c
    generalize enc1 attrTable b = r at h
    cases h <;> decide

/-- Text is read back as it was. -/
theorem ent_roundtrip (s after : List UInt8) (h0 : (0 : UInt8) ∉ s) : entDecode (entEncode s) after = s := entDecode_partial after (entEncode_text s) h0

/-- Attribute values are read back as they were. -/
theorem attr_roundtrip (s : List UInt8) (h0 : (0 : UInt8) ∉ s) : attrDecode (attrEncode s) = s := attrDecode_partial (attrEncode_attr s) h0

/-- `a&"<` -/
example : (0 : UInt8) ∉ ([97, 38, 34, 60] : List UInt8) ∧ attrEncode [97, 38, 34, 60] = [97, 38, 97, 109, 112, 59, 38, 113, 117, 111, 116, 59, 38, 108, 116, 59] := by decide

/-- `&#xA;&apos;` denotes a line feed and an apostrophe. -/
example : Denotes TextRef ([38, 35, 120, 65, 59] ++ ([38, 97, 112, 111, 115, 59] ++ [])) [10, 39] := .ref .lf (.ref (.named .apos) .nil)

/-- `&gt;` and `&apos;` in an attribute are not decoded. -/
theorem attr_gt_fails : Denotes XmlRef [38, 103, 116, 59] [62] ∧ attrDecode [38, 103, 116, 59] = [38, 103, 116, 59] ∧
    Denotes XmlRef [38, 97, 112, 111, 115, 59] [39] ∧ attrDecode [38, 97, 112, 111, 115, 59] = [38, 97, 112, 111, 115, 59] :=
  ⟨.ref (r := [38, 103, 116, 59]) (.named .gt) .nil, by decide +kernel, .ref (r := [38, 97, 112, 111, 115, 59]) (.named .apos) .nil, by decide +kernel⟩

/-- `&#65;` is not decoded in text. -/
theorem charref_fails : Denotes XmlRef [38, 35, 54, 53, 59] [65] ∧ entDecode [38, 35, 54, 53, 59] [0] = [38, 35, 54, 53, 59] :=
  ⟨.ref (r := [38, 35, 54, 53, 59]) (.dec (ds := [54, 53]) (by simp) (by decide) (by decide) (by decide)) .nil, by decide +kernel⟩

end Verif.Xml
