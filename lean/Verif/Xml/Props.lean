import Verif.Xml.LoopProps
/-! C73: an XML document that is written is read back as it was. -/
namespace Verif.Xml
open Verif.Str (Alike eq eqMaxInt eqMax_iff NoOuter trim)
open Verif.Chr (isSpace toLower)

/-- The next thing that is not white space is a tag. -/
def StartsTag (x : List UInt8) : Prop := ∃ ws y, x = ws ++ 60 :: y ∧ ∀ c ∈ ws, isSpace c = true

theorem indent_space (fl : WFlags) (depth : Nat) : ∀ c ∈ indent fl depth, isSpace c = true := by
  intro c hc
  unfold indent at hc
  repeat' split at hc
  · simp at hc
  · rw [(List.mem_replicate.1 hc).2]; decide
  · rw [(List.mem_replicate.1 hc).2]; decide
  · simp at hc

theorem newline_space (fl : WFlags) : ∀ c ∈ newline fl, isSpace c = true := by
  intro c hc
  unfold newline at hc
  split at hc
  · rw [List.mem_singleton] at hc; subst hc; decide
  · simp at hc

/-- The flags of a writer that changes nothing but white space. -/
def Plain (w : WFlags) : Prop := w.ignoreComments = false ∧ w.lowerTags = false ∧ w.lowerAttrs = false ∧ w.rawText = false ∧ w.rawAttrs = false

theorem writeAttrs_eq {w : WFlags} (hw : Plain w) (as : Attrs) : writeAttrs w false as = kvs as := by
  have : as.filter (fun a => !(false && declKeys.any fun k => eq true a.1 k)) = as := by
    rw [List.filter_eq_self]; simp
  simp only [writeAttrs, this, hw.2.2.1, Bool.false_eq_true, if_false, writeVal, hw.2.2.2.2, kvs, kv]
  rfl

theorem eq_self (ci : Bool) (n : List UInt8) : eq ci n n = true := by
  rw [Str.eq, eqMax_iff]
  generalize n.take (Buf.W - 1) = a
  induction a with
  | nil => exact .nil
  | cons c a ih => exact .cons (Or.inl rfl) ih

theorem openAttrs_elem {w : WFlags} (hw : Plain w) (n : List UInt8) (as : Attrs) : openAttrs w false n as = kvs as := by
  simp only [openAttrs, Bool.false_and, Bool.false_eq_true, if_false, writeAttrs_eq hw, List.nil_append]

theorem kvs_append (a b : Attrs) : kvs (a ++ b) = kvs a ++ kvs b := by simp [kvs]

theorem eq_false_of {a b : List UInt8} (ha : a.length < 2 ^ 64) (hb : b.length < 2 ^ 64) (h : ¬ Alike true a b) : eq true a b = false := by
  have := Str.eq_iff true a b ha hb
  cases e : eq true a b with
  | false => rfl
  | true => exact absurd (this.1 e) h

theorem openAttrs_pi {w : WFlags} (hw : Plain w) {n : List UInt8} (hn : IsName n) {as : Attrs} (ha : GoodAttrs as) (hd : n = [120, 109, 108] → DeclOrder as) :
    openAttrs w true n as = kvs as := by
  by_cases hx : n = [120, 109, 108]
  · obtain ⟨v, e, s, o, has, hv, he, hs, ho⟩ := hd hx
    have ho' : ∀ a ∈ o, eq true a.1 [118, 101, 114, 115, 105, 111, 110] = false ∧ eq true a.1 [101, 110, 99, 111, 100, 105, 110, 103] = false ∧
        eq true a.1 [115, 116, 97, 110, 100, 97, 108, 111, 110, 101] = false := by
      intro a h
      have hl := (ha.1 a (by rw [has]; simp [h])).1.2.2
      exact ⟨eq_false_of hl (by simp) (ho a h).1, eq_false_of hl (by simp) (ho a h).2.1, eq_false_of hl (by simp) (ho a h).2.2⟩
    have hno : ∀ k ∈ declKeys, o.find? (fun a => eq true a.1 k) = none := by
      intro k hk
      rw [List.find?_eq_none]
      intro a h
      have := ho' a h
      simp only [declKeys, List.mem_cons, List.not_mem_nil, or_false] at hk
      rcases hk with rfl | rfl | rfl <;> simp_all
    have hof : o.filter (fun a => !(true && declKeys.any fun k => eq true a.1 k)) = o := by
      rw [List.filter_eq_self]
      intro a h
      have := ho' a h
      simp [declKeys, this]
    have hsplit : writeAttrs w true as = kvs o := by
      have h1 : as.filter (fun a => !(true && declKeys.any fun k => eq true a.1 k)) = o := by
        have hk : ∀ k ∈ declKeys, (declKeys.any fun k' => eq true k k') = true := by
          intro k hk
          rw [List.any_eq_true]
          exact ⟨k, hk, eq_self true k⟩
        rw [has, List.filter_append, List.filter_append, List.filter_append, hof]
        have hv' : v.filter (fun a => !(true && declKeys.any fun k => eq true a.1 k)) = [] := by
          rcases hv with rfl | ⟨x, rfl⟩
          · rfl
          · simp [hk [118, 101, 114, 115, 105, 111, 110] (by simp [declKeys])]
        have he' : e.filter (fun a => !(true && declKeys.any fun k => eq true a.1 k)) = [] := by
          rcases he with rfl | ⟨x, rfl⟩
          · rfl
          · simp [hk [101, 110, 99, 111, 100, 105, 110, 103] (by simp [declKeys])]
        have hs' : s.filter (fun a => !(true && declKeys.any fun k => eq true a.1 k)) = [] := by
          rcases hs with rfl | ⟨x, rfl⟩
          · rfl
          · simp [hk [115, 116, 97, 110, 100, 97, 108, 111, 110, 101] (by simp [declKeys])]
        rw [hv', he', hs']; rfl
      have h2 := writeAttrs_eq hw o
      have h3 : o.filter (fun a => !(false && declKeys.any fun k => eq true a.1 k)) = o := by rw [List.filter_eq_self]; simp
      simp only [writeAttrs] at h2 ⊢
      rw [h3] at h2
      rw [h1, h2]
    have hdecl : writeDeclAttrs w as = kvs (v ++ e ++ s) := by
      have hwv : ∀ x, writeVal w x = [61, 34] ++ attrEncode x ++ [34] := by intro x; simp only [writeVal, hw.2.2.2.2, Bool.false_eq_true, if_false]
      have k1 := hno [118, 101, 114, 115, 105, 111, 110] (by simp [declKeys])
      have k2 := hno [101, 110, 99, 111, 100, 105, 110, 103] (by simp [declKeys])
      have k3 := hno [115, 116, 97, 110, 100, 97, 108, 111, 110, 101] (by simp [declKeys])
      have d12 : eq true [118, 101, 114, 115, 105, 111, 110] [101, 110, 99, 111, 100, 105, 110, 103] = false := by decide +kernel
      have d13 : eq true [118, 101, 114, 115, 105, 111, 110] [115, 116, 97, 110, 100, 97, 108, 111, 110, 101] = false := by decide +kernel
      have d21 : eq true [101, 110, 99, 111, 100, 105, 110, 103] [118, 101, 114, 115, 105, 111, 110] = false := by decide +kernel
      have d23 : eq true [101, 110, 99, 111, 100, 105, 110, 103] [115, 116, 97, 110, 100, 97, 108, 111, 110, 101] = false := by decide +kernel
      have d31 : eq true [115, 116, 97, 110, 100, 97, 108, 111, 110, 101] [118, 101, 114, 115, 105, 111, 110] = false := by decide +kernel
      have d32 : eq true [115, 116, 97, 110, 100, 97, 108, 111, 110, 101] [101, 110, 99, 111, 100, 105, 110, 103] = false := by decide +kernel
      rw [has]
      simp only [writeDeclAttrs, declKeys, List.flatMap_cons, List.flatMap_nil, List.find?_append, k1, k2, k3, hwv]
      rcases hv with rfl | ⟨x, rfl⟩ <;> rcases he with rfl | ⟨y, rfl⟩ <;> rcases hs with rfl | ⟨z, rfl⟩ <;>
        simp [List.find?, d12, d13, d21, d23, d31, d32, eq_self, kvs, kv]
    have hxml : eq false n [120, 109, 108] = true := by rw [hx]; exact eq_self _ _
    simp only [openAttrs, hxml, Bool.and_true, if_true]
    rw [hdecl, hsplit, ← kvs_append, ← has]
  · have hxml : eq false n [120, 109, 108] = false := by
      cases e : eq false n [120, 109, 108] with
      | false => rfl
      | true => exact absurd ((Str.eq_exact _ _ hn.2.2 (by simp [Buf.W])).1 e) hx
    simp only [openAttrs, hxml, Bool.and_false, Bool.false_eq_true, if_false, writeAttrs_eq hw, List.nil_append]

/-- Several nodes appended. -/
def St.addAll (st : St) (l : List Node) : St := l.foldl St.add st

theorem addAll_frame (f : Frame) (fs : List Frame) (doc l : List Node) : St.addAll ⟨f :: fs, doc⟩ l = ⟨⟨f.name, f.attrs, l.reverse ++ f.kids⟩ :: fs, doc⟩ := by
  induction l generalizing f with
  | nil => rfl
  | cons n l ih =>
    have : St.addAll ⟨f :: fs, doc⟩ (n :: l) = St.addAll ⟨⟨f.name, f.attrs, n :: f.kids⟩ :: fs, doc⟩ l := rfl
    rw [this, ih]
    simp

theorem addAll_doc (doc l : List Node) : St.addAll ⟨[], doc⟩ l = ⟨[], l.reverse ++ doc⟩ := by
  induction l generalizing doc with
  | nil => rfl
  | cons n l ih =>
    have : St.addAll ⟨[], doc⟩ (n :: l) = St.addAll ⟨[], n :: doc⟩ l := rfl
    rw [this, ih]
    simp

theorem starts_node {w : WFlags} (hw : Plain w) (depth : Nat) (ctx : Ctx) {n : Node} (hg : Good n) (ht : ¬ IsText n) (x : List UInt8) :
    StartsTag (writeNode w depth ctx n ++ x) := by
  cases n with
  | text s => exact absurd trivial ht
  | elem name as kids => exact ⟨indent w depth, _, by simp only [writeNode, List.append_assoc, List.cons_append, List.nil_append]; rfl, indent_space w depth⟩
  | pi name as d => exact ⟨indent w depth, _, by simp only [writeNode, List.append_assoc, List.cons_append, List.nil_append]; rfl, indent_space w depth⟩
  | decl name d => exact ⟨indent w depth, _, by simp only [writeNode, List.append_assoc, List.cons_append, List.nil_append]; rfl, indent_space w depth⟩
  | comment s =>
    exact ⟨indent w depth, _, by simp only [writeNode, hw.1, Bool.false_eq_true, if_false, List.append_assoc, List.cons_append, List.nil_append]; rfl,
      indent_space w depth⟩

theorem StartsTag.space {ws x : List UInt8} (h : ∀ c ∈ ws, isSpace c = true) (hx : StartsTag x) : StartsTag (ws ++ x) := by
  obtain ⟨ws', y, e, h'⟩ := hx
  refine ⟨ws ++ ws', y, by rw [e, List.append_assoc], ?_⟩
  intro c hc
  rcases List.mem_append.1 hc with h1 | h1
  · exact h c h1
  · exact h' c h1

theorem isText_iff (n : Node) : n.isText = true ↔ IsText n := by cases n <;> simp [Node.isText, IsText]

/-- The flags of a reader that keeps everything. -/
def Keeps (f : RFlags) : Prop := f.ignoreComments = false ∧ f.rawText = false ∧ f.rawAttrs = false

theorem ite_nl {c : Prop} [Decidable c] (w : WFlags) : ∀ b ∈ (if c then newline w else []), isSpace b = true := by
  intro b hb
  split at hb
  · exact newline_space w b hb
  · simp at hb

theorem ite_ind {c : Prop} [Decidable c] (w : WFlags) (d : Nat) : ∀ b ∈ (if c then indent w d else []), isSpace b = true := by
  intro b hb
  split at hb
  · exact indent_space w d b hb
  · simp at hb

theorem writeElem_eq (w : WFlags) (depth : Nat) (ctx : Ctx) (name : List UInt8) (as : Attrs) (n : Node) (l : List Node) :
    ∃ nl ind nl', (∀ b ∈ nl, isSpace b = true) ∧ (∀ b ∈ ind, isSpace b = true) ∧ (∀ b ∈ nl', isSpace b = true) ∧
      writeNode w depth ctx (.elem name as (n :: l)) = indent w depth ++ (60 :: (writeName w name ++ (openAttrs w false name as ++ 62 :: (nl ++
        (writeKids w (depth + 1) ((n :: l).length > 1) true false (n :: l) ++ (ind ++ 60 :: 47 :: (writeName w name ++ 62 :: nl'))))))) := by
  refine ⟨(match n :: l with | [.text _] => [] | _ => newline w), (match n :: l with | [.text _] => [] | _ => indent w depth), if ctx.inElem then newline w else [],
    ?_, ?_, ite_nl w, ?_⟩
  · intro b hb
    split at hb
    · simp at hb
    · exact newline_space w b hb
  · intro b hb
    split at hb
    · simp at hb
    · exact indent_space w depth b hb
  · simp only [writeNode, List.append_assoc, List.cons_append, List.nil_append]
    cases n <;> cases l <;> rfl

theorem writeEmpty_eq (w : WFlags) (depth : Nat) (ctx : Ctx) (name : List UInt8) (as : Attrs) :
    writeNode w depth ctx (.elem name as []) = indent w depth ++ (60 :: (writeName w name ++ (openAttrs w false name as ++ ((if w.selfcloseSpace then [32] else []) ++
      47 :: 62 :: newline w)))) := by
  simp only [writeNode, writeKids, List.append_assoc, List.cons_append, List.nil_append, List.append_nil]

variable {w : WFlags} (hw : Plain w) {f : RFlags} (hf : Keeps f) (multi : Bool) (after : List UInt8)
include hw hf

mutual
/-- A node that was written is read back, whatever follows. -/
theorem reads_node (n : Node) (hg : Good n) (depth : Nat) (ctx : Ctx) (st : St) (hnd : ¬ Done st) (x : List UInt8) (hx : IsText n → StartsTag x) :
    readAll f multi after st (writeNode w depth ctx n ++ x) = readAll f multi after (st.add n) x := by
  match n, hg, hx with
  | .text s, hg, hx =>
    simp only [Good] at hg
    obtain ⟨ws, y, e, hws⟩ := hx trivial
    simp only [writeNode, hw.2.2.2.1, Bool.false_eq_true, if_false, List.append_assoc]
    rw [readAll_space _ _ _ _ _ _ (ite_ind w depth), e]
    have hnl : ∀ b ∈ (if (ctx.many && !ctx.nextText) = true then newline w else []), isSpace b = true := ite_nl w
    revert hnl
    generalize (if (ctx.many && !ctx.nextText) = true then newline w else []) = nl
    intro hnl
    have hws' : ∀ c ∈ nl ++ ws, isSpace c = true := by
      intro c hc
      rcases List.mem_append.1 hc with h | h
      · exact hnl c h
      · exact hws c h
    obtain ⟨h1, h2⟩ := entEncode_trimmed hg.2.1 hg.2.2
    have ht := readText_eq f hf.2.1 st (x := y) hg.1 hg.2.1 hg.2.2 hws'
    have hne := (entEncode_correct s).2
    rw [List.append_assoc] at ht
    revert ht
    generalize nl ++ (ws ++ 60 :: y) = z
    intro ht
    cases ee : entEncode s with
    | nil => exact absurd ee h1
    | cons c t =>
      rw [ee] at ht hne
      rw [List.cons_append] at ht ⊢
      rw [readAll_text hnd (h2.1 c t ee) (hne c (by simp)).1, ht, readAll_space _ _ _ _ _ _ hws]
  | .comment s, hg, _ =>
    simp only [Good] at hg
    have e : writeNode w depth ctx (.comment s) ++ x = indent w depth ++ ([60, 33, 45, 45] ++ (tagData s ++ [32] ++ ([45, 45, 62] ++ (newline w ++ x)))) := by
      simp only [writeNode, hw.1, Bool.false_eq_true, if_false, List.append_assoc, List.cons_append, List.nil_append]
    rw [e, readAll_space _ _ _ _ _ _ (indent_space w depth)]
    have hi := tagInfo_comment hg.2.2 (newline w ++ x)
    have hcs : trim (cstr (tagData s ++ [32])) = s := by
      have h0 : (0 : UInt8) ∉ tagData s ++ [32] := by
        unfold tagData
        split
        · simp
        · simp [hg.1]
      rw [cstr_eq h0]
      unfold tagData
      split
      · rename_i h; subst h; decide
      · exact Str.trim_unique (a := [32]) (b := [32]) (by simp) (by simp; decide) (by simp; decide) hg.2.1.noOuter
    rw [readAll_tag hnd (st' := st.add (.comment s)) (by simp only [List.cons_append]; rfl) hi (by simp only [tagProcess, hf.1, Bool.false_eq_true, if_false, hcs]),
      readAll_space _ _ _ _ _ _ (newline_space w)]
  | .pi name as d, hg, _ =>
    simp only [Good] at hg
    obtain ⟨h1, h2, rfl, h3⟩ := hg
    have e : writeNode w depth ctx (.pi name as []) ++ x = indent w depth ++ (60 :: 63 :: (name ++ (kvs as ++ 63 :: 62 :: (newline w ++ x)))) := by
      simp only [writeNode, writeName, hw.2.1, Bool.false_eq_true, if_false, openAttrs_pi hw h1 h2 h3, tagData, if_true, List.append_assoc, List.cons_append,
        List.nil_append]
    rw [e, readAll_space _ _ _ _ _ _ (indent_space w depth)]
    have hr := readAttrs_kvs f hf.2.2 h2 [] (by simp)
    rw [List.append_nil] at hr
    rw [readAll_tag hnd (st' := st.add (.pi name as [])) rfl (tagInfo_pi h1 h2 (newline w ++ x)) (by simp only [tagProcess, hr, h1.1, if_false]),
      readAll_space _ _ _ _ _ _ (newline_space w)]
  | .elem name as [], hg, _ =>
    simp only [Good] at hg
    obtain ⟨h1, h2, _⟩ := hg
    have hsp : ∀ c ∈ (if w.selfcloseSpace = true then [32] else ([] : List UInt8)), isSpace c = true := by
      intro c hc
      split at hc
      · rw [List.mem_singleton] at hc; subst hc; decide
      · simp at hc
    rw [writeEmpty_eq]
    simp only [writeName, hw.2.1, Bool.false_eq_true, if_false, openAttrs_elem hw, List.append_assoc, List.cons_append]
    rw [readAll_space _ _ _ _ _ _ (indent_space w depth)]
    revert hsp
    generalize (if w.selfcloseSpace = true then [32] else ([] : List UInt8)) = sp
    intro hsp
    rw [readAll_tag hnd (st' := st.add (.elem name as [])) rfl (tagInfo_empty h1 h2 sp (newline w ++ x) hsp)
      (by simp only [tagProcess, readAttrs_kvs f hf.2.2 h2 sp hsp, h1.1, if_false]), readAll_space _ _ _ _ _ _ (newline_space w)]
  | .elem name as (k :: l), hg, _ =>
    simp only [Good] at hg
    obtain ⟨h1, h2, h3⟩ := hg
    obtain ⟨nl, ind, nl', hnl, hind, hnl', e⟩ := writeElem_eq w depth ctx name as k l
    rw [e]
    simp only [writeName, hw.2.1, Bool.false_eq_true, if_false, openAttrs_elem hw, List.append_assoc, List.cons_append]
    rw [readAll_space _ _ _ _ _ _ (indent_space w depth)]
    have hr := readAttrs_kvs f hf.2.2 h2 [] (by simp)
    rw [List.append_nil] at hr
    rw [readAll_tag hnd (st' := ⟨⟨name, as, []⟩ :: st.frames, st.doc⟩) rfl (tagInfo_start h1 h2 _) (by simp only [tagProcess, hr, h1.1, if_false]),
      readAll_space _ _ _ _ _ _ hnl]
    have hst : StartsTag (ind ++ 60 :: 47 :: (name ++ 62 :: (nl' ++ x))) := ⟨ind, _, rfl, hind⟩
    rw [reads_kids (k :: l) h3 (depth + 1) _ true false _ (fun h => by simp at h) _ (fun _ _ _ _ => hst), addAll_frame, readAll_space _ _ _ _ _ _ hind]
    rw [readAll_tag (by simp [Done]) (st' := st.add (.elem name as (k :: l))) rfl (tagInfo_end h1 _)
      (by simp only [tagProcess, eq_self, Bool.true_eq_false, if_false, List.append_nil, List.reverse_reverse]),
      readAll_space _ _ _ _ _ _ hnl']
  | .decl _ _, hg, _ => exact absurd hg (by simp [Good])

/-- Written children are read back, whatever follows. -/
theorem reads_kids (l : List Node) (hg : GoodKids l) (depth : Nat) (many inElem prevText : Bool) (st : St)
    (hnd : st.frames = [] → l ≠ [] → st.doc.any Node.isElem = false ∧ ∀ p n q, l = p ++ n :: q → q ≠ [] → n.isElem = false) (x : List UInt8)
    (hx : ∀ p n, l = p ++ [n] → IsText n → StartsTag x) :
    readAll f multi after st (writeKids w depth many inElem prevText l ++ x) = readAll f multi after (st.addAll l) x := by
  match l, hg, hnd, hx with
  | [], _, _, _ => simp only [writeKids, List.nil_append]; rfl
  | n :: l, hg, hnd, hx =>
    simp only [GoodKids] at hg
    simp only [writeKids, List.append_assoc]
    rw [reads_node n hg.1]
    · rw [reads_kids l hg.2.2]
      · rfl
      · intro hfr hl
        have hst : (st.add n).frames = [] → st.frames = [] := by
          simp only [St.add]
          cases h : st.frames <;> simp
        obtain ⟨h1, h2⟩ := hnd (hst hfr) (by simp)
        refine ⟨?_, fun p m q e hq => h2 (n :: p) m q (by rw [e]; rfl) hq⟩
        simp only [St.add, hst hfr, List.any_cons, h1, Bool.or_false]
        exact h2 [] n l rfl hl
      · intro p m e hm
        exact hx (n :: p) m (by rw [e]; rfl) hm
    · rintro ⟨h1, h2⟩
      rw [List.isEmpty_iff] at h1
      rw [(hnd h1 (by simp)).1] at h2
      simp at h2
    · intro ht
      cases l with
      | nil => simp only [writeKids, List.nil_append]; exact hx [] n rfl ht
      | cons m l =>
        simp only [writeKids, List.append_assoc]
        have hg' := hg.2.2
        simp only [GoodKids] at hg'
        exact starts_node hw _ _ hg'.1 (hg.2.1 ht m l rfl) _
end

/-- **C73.** A document that is written, with or without indentation, is read back as it was, and nothing is left over.  The full
statement, for every tree, is refuted by the theorems below. -/
theorem roundtrip_partial {kids : List Node} (hg : GoodDoc kids) : read f multi (writeDoc w kids) after = .ok (kids, []) := by
  obtain ⟨pre, name, as, ks, e, hgk, hpre⟩ := hg
  have hr := reads_kids hw hf multi after kids hgk 0 (kids.length > 1) false false ⟨[], []⟩
    (fun _ _ => ⟨rfl, by
      intro p n q e1 hq
      rw [e] at e1
      have hn : n ∈ pre := by
        have h1 := congrArg List.dropLast e1
        rw [List.dropLast_concat, List.dropLast_append_of_ne_nil (by simp), List.dropLast_cons_of_ne_nil hq] at h1
        rw [h1]; simp
      cases n with
      | elem a b c => exact absurd rfl (hpre _ hn a b c)
      | _ => rfl⟩) []
    (by
      intro p n e1 ht
      rw [e] at e1
      have := List.append_inj' e1 rfl
      simp only [List.cons.injEq, and_true] at this
      rw [← this.2] at ht
      exact ht.elim)
  rw [List.append_nil, addAll_doc, List.append_nil] at hr
  have hne : writeDoc w kids ≠ [] := by
    intro h0
    rw [writeDoc] at h0
    rw [h0] at hr
    simp only [readAll, List.length_nil, readLoop, Res.ok.injEq, Prod.mk.injEq, and_true, St.mk.injEq, true_and] at hr
    rw [e] at hr; simp at hr
  have hl : readLoop f multi after ((writeDoc w kids).length + 1) ⟨[], []⟩ (writeDoc w kids) = .ok (⟨[], kids.reverse⟩, []) := hr
  have hany : (kids.reverse.any Node.isElem) = true := by
    rw [e, List.reverse_append, List.any_append]; rfl
  simp only [read, hne, if_false, hl, Res.bind, hany, ne_eq, not_true, Bool.true_eq_false, List.reverse_reverse]

/-- The same for an element on its own. -/
theorem roundtrip_elem_partial {name : List UInt8} {as : Attrs} {ks : List Node} (hg : Good (.elem name as ks)) :
    read f multi (write w (.elem name as ks)) after = .ok ([.elem name as ks], []) := by
  have h := reads_node hw hf multi after (.elem name as ks) hg 0 {} ⟨[], []⟩ (by simp [Done]) [] (fun h => h.elim)
  rw [List.append_nil] at h
  have hs := starts_node hw 0 {} hg (fun h => h) []
  obtain ⟨ws, y, e, _⟩ := hs
  rw [List.append_nil] at e
  have hne : write w (.elem name as ks) ≠ [] := by rw [write, e]; simp
  have hl : readLoop f multi after ((write w (.elem name as ks)).length + 1) ⟨[], []⟩ (write w (.elem name as ks)) = .ok (⟨[], [.elem name as ks]⟩, []) := h
  simp only [read, hne, if_false, hl, Res.bind, ne_eq, not_true, List.any_cons, Node.isElem, Bool.true_or, Bool.true_eq_false, List.reverse_cons, List.reverse_nil,
    List.nil_append]
omit hw hf


/-! ### Examples, and where it fails -/

/-- `<?xml version="1.0"?><a b="1 &gt; &lt;">x &amp; y<c/><!-- z --></a>` (with a plain `>` in the attribute) -/
example : GoodDoc [.pi [120, 109, 108] [([118, 101, 114, 115, 105, 111, 110], [49, 46, 48])] [], .elem [97] [([98], [49, 32, 62, 32, 60])] [.text [120, 32, 38, 32, 121], .elem [99] [] [], .comment [122]]] := by
  refine ⟨[.pi [120, 109, 108] [([118, 101, 114, 115, 105, 111, 110], [49, 46, 48])] []], _, _, _, rfl, ?_, ?_⟩
  · have n1 : IsName [97] := ⟨by simp, by decide, by simp⟩
    have n2 : IsName [98] := ⟨by simp, by decide, by simp⟩
    have n3 : IsName [99] := ⟨by simp, by decide, by simp⟩
    have n4 : IsName [120, 109, 108] := ⟨by simp, by decide, by simp⟩
    have n5 : IsName [118, 101, 114, 115, 105, 111, 110] := ⟨by simp, by decide, by simp⟩
    have t1 : Trimmed [120, 32, 38, 32, 121] := by
      refine ⟨?_, ?_⟩
      · intro c t e; rw [← (List.cons.inj e).1]; unfold Space; decide
      · intro c t e
        have := congrArg List.getLast? e
        simp at this; subst this; unfold Space; decide
    have t2 : Trimmed [122] := by
      refine ⟨?_, ?_⟩
      · intro c t e; rw [← (List.cons.inj e).1]; unfold Space; decide
      · intro c t e
        have := congrArg List.getLast? e
        simp at this; subst this; unfold Space; decide
    refine ⟨⟨n4, ⟨by simp [n5], by simp⟩, rfl, fun _ => ⟨[([118, 101, 114, 115, 105, 111, 110], [49, 46, 48])], [], [], [], rfl, Or.inr ⟨_, rfl⟩, Or.inl rfl, Or.inl rfl, by simp⟩⟩,
      fun h => h.elim, ⟨n1, ⟨by simp [n2], by simp⟩, ?_⟩, fun h => h.elim, trivial⟩
    refine ⟨⟨by decide, by simp, t1⟩, fun _ m k e => ?_, ⟨n3, ⟨by simp, by simp⟩, trivial⟩, fun h => h.elim, ⟨by decide, t2, ?_⟩, fun h => h.elim, trivial⟩
    · rw [← (List.cons.inj e).1]; exact id
    · intro p q e
      have := congrArg List.length e
      simp at this; omega
  · intro n hn a b c
    rw [List.mem_singleton] at hn; subst hn; simp

example : writeDoc {} [.pi [120, 109, 108] [([118, 101, 114, 115, 105, 111, 110], [49, 46, 48])] [], .elem [97] [([98], [49, 32, 62, 32, 60])] [.text [120, 32, 38, 32, 121], .elem [99] [] [], .comment [122]]] = [60, 63, 120, 109, 108, 32, 118, 101, 114, 115, 105, 111, 110, 61, 34, 49, 46, 48, 34, 63, 62, 60, 97, 32, 98, 61, 34, 49, 32, 62, 32, 38, 108, 116, 59, 34, 62, 120, 32, 38, 97, 109, 112, 59, 32, 121, 60, 99, 47, 62, 60, 33, 45, 45, 32, 122, 32, 45, 45, 62, 60, 47, 97, 62] := by decide +kernel

/-- The data of a declaration reaches to the end of the text: `<!DOCTYPE a><a/>`. -/
theorem declaration_fails : read {} false [60, 33, 68, 79, 67, 84, 89, 80, 69, 32, 97, 62, 60, 97, 47, 62] [0] = .ok ([.decl [68, 79, 67, 84, 89, 80, 69] [32, 97, 62, 60, 97, 47, 62], .elem [97] [] []], []) := by rfl

/-- If no terminator follows the data, memory behind it is read. -/
theorem declaration_ub_fails : read {} false [60, 33, 68, 79, 67, 84, 89, 80, 69, 32, 97, 62, 60, 97, 47, 62] [] = .ub := by rfl

/-- References in a CDATA section are decoded: `<a><![CDATA[&lt;]]></a>` should hold the text `&lt;`. -/
theorem cdata_fails : read {} false [60, 97, 62, 60, 33, 91, 67, 68, 65, 84, 65, 91, 38, 108, 116, 59, 93, 93, 62, 60, 47, 97, 62] [0] = .ok ([.elem [97] [] [.text [60]]], []) := by rfl

/-- When text is not to be decoded, a CDATA section reaches to the end of the text: `<a><![CDATA[x]]></a>`. -/
theorem cdata_raw_fails : read { rawText := true } false [60, 97, 62, 60, 33, 91, 67, 68, 65, 84, 65, 91, 120, 93, 93, 62, 60, 47, 97, 62] [0] = .ok ([.elem [97] [] [.text [120, 93, 93, 62, 60, 47, 97, 62]]], []) := by rfl

/-- A comment after the root element, which XML allows, is refused: `<a/><!--x-->`. -/
theorem trailing_comment_fails : read {} false [60, 97, 47, 62, 60, 33, 45, 45, 120, 45, 45, 62] [0] = .err .expectedEnd := by rfl

/-- Attributes that differ in case only, which XML allows, are refused: `<a b="" B=""/>`. -/
theorem attr_case_fails : read {} false [60, 97, 32, 98, 61, 34, 34, 32, 66, 61, 34, 34, 47, 62] [0] = .err .attrExists := by rfl

/-- White space at the start of a text is lost. -/
theorem text_space_fails : write {} (.elem [97] [] [.text [32, 120]]) = [60, 97, 62, 32, 120, 60, 47, 97, 62] ∧
    read {} false [60, 97, 62, 32, 120, 60, 47, 97, 62] [0] = .ok ([.elem [97] [] [.text [120]]], []) := ⟨by decide +kernel, by rfl⟩

/-- A comment can end itself: what follows is read as more than a comment. -/
theorem comment_fails : write {} (.elem [97] [] [.comment [45, 45, 62, 60, 98, 47, 62]]) = [60, 97, 62, 60, 33, 45, 45, 32, 45, 45, 62, 60, 98, 47, 62, 32, 45, 45, 62, 60, 47, 97, 62] ∧
    read {} false [60, 97, 62, 60, 33, 45, 45, 32, 45, 45, 62, 60, 98, 47, 62, 32, 45, 45, 62, 60, 47, 97, 62] [0] = .ok ([.elem [97] [] [.comment [], .elem [98] [] [], .text [45, 45, 62]]], []) := ⟨by decide +kernel, by rfl⟩

/-- The data of a processing instruction is read back as attributes. -/
theorem pi_data_fails : writeDoc {} [.pi [112] [] [120, 32, 121], .elem [97] [] []] = [60, 63, 112, 32, 120, 32, 121, 63, 62, 60, 97, 47, 62] ∧
    read {} false [60, 63, 112, 32, 120, 32, 121, 63, 62, 60, 97, 47, 62] [0] = .ok ([.pi [112] [([120], []), ([121], [])] [], .elem [97] [] []], []) := ⟨by decide +kernel, by rfl⟩

end Verif.Xml
