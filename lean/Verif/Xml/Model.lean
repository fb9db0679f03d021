import Verif.Str.Model
import Verif.Mem.Model
/- Model of `formats/xml/m_xml_entities.c`, `formats/xml/m_xml_reader.c` and `formats/xml/m_xml_writer.c`, with the parts of
`formats/xml/m_xml.c` they use.

The data a reader has left is a list of bytes; `after` is the memory that follows the caller's data, which some functions look
at.  A read past that memory is the outcome `ub`.  Strings are lists of bytes without the terminator.  Line and column of errors
are not modelled, allocation does not fail.  The attributes of a node, an `M_hash_dict_t` with ordered keys compared without
case, are the list of pairs in the order of insertion (`Verif.Hash`). -/
namespace Verif.Xml
open Verif.Chr (isSpace toLower)
open Verif.Str (eq eqMaxInt trim)

/-- What `M_strdup` copies: the bytes before the first zero byte.  That there is one is the caller's business. -/
def cstr (m : List UInt8) : List UInt8 := m.takeWhile (· ≠ 0)

/- Entities -/

/-- `formats/xml/m_xml_entities.c:37-44`, `M_xml_encode_entities`. -/
def encodeTable : List (UInt8 × List UInt8) :=
  [(34, [38, 113, 117, 111, 116, 59]), (39, [38, 97, 112, 111, 115, 59]), (38, [38, 97, 109, 112, 59]), (62, [38, 103, 116, 59]), (60, [38, 108, 116, 59])]

/-- `formats/xml/m_xml_entities.c:45-54`, `M_xml_decode_entities`. -/
def decodeTable : List (UInt8 × List UInt8) :=
  [(34, [38, 113, 117, 111, 116, 59]), (39, [38, 97, 112, 111, 115, 59]), (38, [38, 97, 109, 112, 59]), (62, [38, 103, 116, 59]), (60, [38, 108, 116, 59]),
    (10, [38, 35, 120, 65, 59]), (13, [38, 35, 120, 68, 59])]

/-- `formats/xml/m_xml_entities.c:55-60`, `M_xml_attribute_entities`. -/
def attrTable : List (UInt8 × List UInt8) := [(34, [38, 113, 117, 111, 116, 59]), (38, [38, 97, 109, 112, 59]), (60, [38, 108, 116, 59])]

/-- `formats/xml/m_xml_entities.c:76-103`: the loop over the bytes.  `pend` are the bytes from `prev` on, if `is_first` is unset. -/
def encodeLoop (t : List (UInt8 × List UInt8)) : List UInt8 → List UInt8 → List UInt8 → List UInt8
  | [], pend, out => out ++ pend
  | c :: s, pend, out =>
    match t.find? (fun e => e.1 = c) with
    | some e => encodeLoop t s [] (out ++ pend ++ e.2)
    | none => encodeLoop t s (pend ++ [c]) out

/-- `formats/xml/m_xml_entities.c:64-110`, `M_xml_entities_encode_int`. -/
def encodeInt (t : List (UInt8 × List UInt8)) (s : List UInt8) : List UInt8 := encodeLoop t s [] []

/-- `formats/xml/m_xml_entities.c:120-136`: the loop over the bytes.  `skip` is what is left of the entity read last; the
memory behind the text is `after`, which the comparison may look at. -/
def decodeLoop (t : List (UInt8 × List UInt8)) (after : List UInt8) : List UInt8 → Nat → List UInt8
  | [], _ => []
  | _ :: s, skip + 1 => decodeLoop t after s skip
  | c :: s, 0 =>
    if c = 38 then
      match t.find? (fun e => eqMaxInt true (cstr (c :: s ++ after)) e.2 e.2.length) with
      | some e => e.1 :: decodeLoop t after s (e.2.length - 1)
      | none => c :: decodeLoop t after s 0
    else c :: decodeLoop t after s 0

/-- `formats/xml/m_xml_entities.c:112-140`, `M_xml_entities_decode_int`: the string the result holds. -/
def decodeInt (t : List (UInt8 × List UInt8)) (s after : List UInt8) : List UInt8 := cstr (decodeLoop t after s 0)

/-- `M_xml_entities_encode`, `formats/xml/m_xml_entities.c:145-148`. -/
def entEncode (s : List UInt8) : List UInt8 := encodeInt encodeTable s
/-- `M_xml_entities_decode`, `formats/xml/m_xml_entities.c:150-153`. -/
def entDecode (s after : List UInt8) : List UInt8 := decodeInt decodeTable s after
/-- `M_xml_attribute_encode`, `formats/xml/m_xml_entities.c:155-158`. -/
def attrEncode (s : List UInt8) : List UInt8 := encodeInt attrTable s
/-- `M_xml_attribute_decode`, `formats/xml/m_xml_entities.c:160-163`. -/
def attrDecode (s : List UInt8) : List UInt8 := decodeInt attrTable s [0]

/- The tree -/

abbrev Attrs := List (List UInt8 × List UInt8)

/-- `M_xml_node_t`, `formats/xml/m_xml.c:33-62`, other than the document itself.  Missing tag data is the empty string. -/
inductive Node
  | elem (name : List UInt8) (attrs : Attrs) (kids : List Node)
  | pi (name : List UInt8) (attrs : Attrs) (data : List UInt8)
  | decl (name : List UInt8) (data : List UInt8)
  | text (s : List UInt8)
  | comment (s : List UInt8)

/-- Whether a node is a text. -/
def Node.isText : Node → Bool
  | .text _ => true
  | _ => false

/-- Whether a node is an element. -/
def Node.isElem : Node → Bool
  | .elem _ _ _ => true
  | _ => false

/- Writer -/

/-- `M_xml_writer_flags_t`, `include/mstdlib/formats/m_xml.h:139-153`. -/
structure WFlags where
  ignoreComments : Bool := false
  lowerTags : Bool := false
  lowerAttrs : Bool := false
  rawText : Bool := false
  rawAttrs : Bool := false
  space : Bool := false
  tab : Bool := false
  selfcloseSpace : Bool := false

/-- `formats/xml/m_xml_writer.c:36-46`, `M_xml_write_node_indent`. -/
def indent (fl : WFlags) (depth : Nat) : List UInt8 :=
  if depth = 0 then [] else if fl.space then List.replicate (depth * 2) 32 else if fl.tab then List.replicate depth 9 else []

/-- `formats/xml/m_xml_writer.c:48-53`, `M_xml_write_node_newline`. -/
def newline (fl : WFlags) : List UInt8 := if fl.space || fl.tab then [10] else []

/-- `formats/xml/m_xml_writer.c:123-130`: the name as written. -/
def writeName (fl : WFlags) (n : List UInt8) : List UInt8 := if fl.lowerTags then n.map toLower else n

/-- `formats/xml/m_xml_writer.c:211-219`: the value of an attribute. -/
def writeVal (fl : WFlags) (v : List UInt8) : List UInt8 := [61, 34] ++ (if fl.rawAttrs then v else attrEncode v) ++ [34]

/-- `formats/xml/m_xml_writer.c:137-144`, `M_xml_write_declaration_attributes`: version, encoding, standalone. -/
def declKeys : List (List UInt8) :=
  [[118, 101, 114, 115, 105, 111, 110], [101, 110, 99, 111, 100, 105, 110, 103], [115, 116, 97, 110, 100, 97, 108, 111, 110, 101]]

/-- `formats/xml/m_xml_writer.c:190-220`: all attributes but those written earlier. -/
def writeAttrs (fl : WFlags) (isDec : Bool) (as : Attrs) : List UInt8 :=
  (as.filter fun a => !(isDec && declKeys.any fun k => eq true a.1 k)).flatMap fun a => 32 :: (if fl.lowerAttrs then a.1.map toLower else a.1) ++ writeVal fl a.2

/-- `formats/xml/m_xml_writer.c:164-186`: the attributes of the XML declaration. -/
def writeDeclAttrs (fl : WFlags) (as : Attrs) : List UInt8 :=
  declKeys.flatMap fun k => match as.find? fun a => eq true a.1 k with
    | none => []
    | some a => 32 :: k ++ writeVal fl a.2

/-- `formats/xml/m_xml_writer.c:147-224`, `M_xml_write_node_tag_open_attributes`; `isPi` tells a processing instruction. -/
def openAttrs (fl : WFlags) (isPi : Bool) (name : List UInt8) (as : Attrs) : List UInt8 :=
  let isDec := isPi && eq false name [120, 109, 108]
  (if isDec then writeDeclAttrs fl as else []) ++ writeAttrs fl isDec as

/-- `formats/xml/m_xml_writer.c:227-245`, `M_xml_write_node_tag_open_tag_data`. -/
def tagData (d : List UInt8) : List UInt8 := if d = [] then [] else 32 :: d

/-- What the writer looks at around a node: whether its parent has more than one child, whether the siblings before and after it
are texts, and whether the parent is an element (there may be no parent, or the document). -/
structure Ctx where
  many : Bool := false
  prevText : Bool := false
  nextText : Bool := false
  inElem : Bool := false

mutual
/-- `formats/xml/m_xml_writer.c:349-362`, `M_xml_write_node`, with the functions it calls in turn (55-110, 112-133, 247-274 and
302-333). -/
def writeNode (fl : WFlags) (depth : Nat) (ctx : Ctx) : Node → List UInt8
  | .text s =>
    (if ctx.many && !ctx.prevText then indent fl depth else []) ++ (if fl.rawText then s else entEncode s) ++
      (if ctx.many && !ctx.nextText then newline fl else [])
  | .elem name as kids =>
    indent fl depth ++ [60] ++ writeName fl name ++ openAttrs fl false name as ++
      (match kids with | [] => (if fl.selfcloseSpace then [32] else []) ++ [47] | _ => []) ++ [62] ++
      (match kids with | [.text _] => [] | _ => newline fl) ++
      writeKids fl (depth + 1) (kids.length > 1) true false kids ++
      (match kids with
        | [] => []
        | _ => (match kids with | [.text _] => [] | _ => indent fl depth) ++ [60, 47] ++ writeName fl name ++ [62] ++ if ctx.inElem then newline fl else [])
  | .pi name as d => indent fl depth ++ [60, 63] ++ writeName fl name ++ openAttrs fl true name as ++ tagData d ++ [63, 62] ++ newline fl
  | .decl name d => indent fl depth ++ [60, 33] ++ writeName fl name ++ tagData d ++ [62] ++ newline fl
  | .comment s => if fl.ignoreComments then [] else indent fl depth ++ [60, 33, 45, 45] ++ tagData s ++ [32, 45, 45, 62] ++ newline fl

/-- `formats/xml/m_xml_writer.c:277-300`, `M_xml_write_node_children`. -/
def writeKids (fl : WFlags) (depth : Nat) (many inElem prevText : Bool) : List Node → List UInt8
  | [] => []
  | n :: l =>
    writeNode fl depth ⟨many, prevText, (match l with | [] => false | m :: _ => m.isText), inElem⟩ n ++ writeKids fl depth many inElem n.isText l
end

/-- `M_xml_write` (`formats/xml/m_xml_writer.c:366-399`) of a document with the given children. -/
def writeDoc (fl : WFlags) (kids : List Node) : List UInt8 := writeKids fl 0 (kids.length > 1) false false kids

/-- `M_xml_write` of a node without a parent. -/
def write (fl : WFlags) (n : Node) : List UInt8 := writeNode fl 0 {} n

/- Reader -/

/-- `M_xml_error_t`. -/
inductive Err
  | generic
  | misuse
  | attrExists
  | noElements
  | invalidStartTag
  | invalidCharInStartTag
  | emptyStartTag
  | missingDeclarationName
  | ineligibleForClose
  | unexpectedClose
  | missingCloseTag
  | missingPiEnd
  | expectedEnd
deriving DecidableEq, Repr

/-- `M_xml_reader_flags_t`, `include/mstdlib/formats/m_xml.h:125-135`. -/
structure RFlags where
  ignoreComments : Bool := false
  tagCasecmp : Bool := false
  rawText : Bool := false
  rawAttrs : Bool := false

/-- The outcome of reading: undefined behaviour, an error, or a result. -/
inductive Res (α : Type)
  | ub
  | err (e : Err)
  | ok (a : α)
deriving DecidableEq

/-- Continue with a result. -/
def Res.bind {α β : Type} : Res α → (α → Res β) → Res β
  | .ub, _ => .ub
  | .err e, _ => .err e
  | .ok a, f => f a

/-- `M_xml_reader_tags_t`, `formats/xml/m_xml_reader.c:33-41`. -/
inductive Tag
  | pi
  | comment
  | start
  | endTag
  | empty
  | cdata
  | decl
deriving DecidableEq

/-- `formats/xml/m_xml_reader.c:61-80`, `M_xml_read_find_unquoted_chr`: the index of the match; `q` is `on_quote`. -/
def findUnquoted (ch : UInt8) : List UInt8 → UInt8 → Option Nat
  | [], _ => none
  | c :: s, q =>
    if c = 39 ∨ c = 34 then
      (findUnquoted ch s (if q ≠ 0 then (if c = q then 0 else q) else c)).map (· + 1)
    else if c = ch ∧ q = 0 then some 0
    else (findUnquoted ch s q).map (· + 1)

/-- `formats/xml/m_xml_reader.c:88-102`, `M_xml_read_find_nonws_ch_reverse`: the index of the match. -/
def findReverse (ch : UInt8) (s : List UInt8) : Option Nat :=
  match s.reverse.dropWhile isSpace with
  | [] => none
  | c :: r => if c = ch then some r.length else none

/-- `formats/xml/m_xml_reader.c:121-141`: the index and the length of the end of the tag. -/
def tagPos (ty : Tag) (d : List UInt8) : Res (Option (Nat × Nat)) :=
  match ty with
  | .comment => match Mem.mem d [45, 45, 62] with | none => .ub | some r => .ok (r.map (·, 3))
  | .cdata => match Mem.mem d [93, 93, 62] with | none => .ub | some r => .ok (r.map (·, 3))
  | _ => .ok ((findUnquoted 62 d 0).map (·, 1))

/-- `formats/xml/m_xml_reader.c:115-167`, `M_xml_read_tag_end`: the tag type, the data up to the end of the tag, and the data
behind the tag. -/
def tagEnd (ty : Tag) (d : List UInt8) : Res (Tag × List UInt8 × List UInt8) :=
  (tagPos ty d).bind fun
    | none => .err .missingCloseTag
    | some (i, n) =>
      match ty with
      | .pi => match findReverse 63 (d.take i) with
        | none => .err .missingPiEnd
        | some j => .ok (ty, d.take j, d.drop (i + n))
      | .start => match findReverse 47 (d.take i) with
        | none => .ok (ty, d.take i, d.drop (i + n))
        | some j => .ok (.empty, d.take j, d.drop (i + n))
      | _ => .ok (ty, d.take i, d.drop (i + n))

/-- `formats/xml/m_xml_reader.c:229-284`: the type of the tag and the data behind what tells it; `p` is the data behind `<` and
white space. -/
def tagType (p : List UInt8) : Res (Tag × List UInt8) :=
  match p with
  | [] => .err .emptyStartTag
  | c :: r =>
    if c = 47 then .ok (.endTag, r.dropWhile isSpace)
    else if c = 63 then .ok (.pi, r.dropWhile isSpace)
    else if c = 60 then .err .invalidCharInStartTag
    else if c = 33 then
      let r := r.dropWhile isSpace
      if r = [] then .err .missingDeclarationName
      else if r.length ≥ 2 ∧ r.take 2 = [45, 45] then .ok (.comment, r.drop 2)
      else if r.length ≥ 7 ∧ r.take 7 = [91, 67, 68, 65, 84, 65, 91] then .ok (.cdata, r.drop 7)
      else .ok (.decl, r)
    else .ok (.start, p)

/-- The tag found: its type, its name, the data behind the name, that data up to the end of the tag, and the data behind the tag. -/
structure Info where
  ty : Tag
  name : List UInt8
  data : List UInt8
  body : List UInt8
  rest : List UInt8

/-- `formats/xml/m_xml_reader.c:199-305`, `M_xml_read_tag_info`, with `M_xml_read_name` (174-187). -/
def tagInfo (d : List UInt8) : Res Info :=
  match d with
  | [] => .ub
  | c :: r =>
    if c ≠ 60 then .err .invalidStartTag
    else (tagType (r.dropWhile isSpace)).bind fun t => (tagEnd t.1 t.2).bind fun e =>
      if e.1 = .cdata ∨ e.1 = .comment then .ok ⟨e.1, [], t.2, e.2.1, e.2.2⟩
      else
        let n := e.2.1.takeWhile fun c => !isSpace c
        if n = [] then .err .invalidStartTag
        else .ok ⟨e.1, cstr n, t.2.drop (cstr n).length, e.2.1.drop (cstr n).length, e.2.2⟩

/-- `formats/xml/m_xml_reader.c:337-369`: the loop of `M_xml_read_attribute_strip_extra_whitespace`; `q` is `on_quote`, `req` is
`request_space`. -/
def stripLoop : List UInt8 → UInt8 → Int → List UInt8
  | [], _, _ => []
  | c :: s, q, req =>
    if q ≠ 0 then c :: stripLoop s (if c = q then 0 else q) req
    else if c = 39 ∨ c = 34 then (if req = 1 then [32] else []) ++ c :: stripLoop s c 0
    else if isSpace c then stripLoop s q (if req ≠ -1 then 1 else req)
    else if c = 61 then c :: stripLoop s q (-1)
    else (if req = 1 then [32] else []) ++ c :: stripLoop s q 0

/-- `formats/xml/m_xml_reader.c:314-373`, `M_xml_read_attribute_strip_extra_whitespace`; `none` is a null pointer. -/
def strip (d : List UInt8) : Option (List UInt8) :=
  let p := d.dropWhile isSpace
  if p = [] then none else some (stripLoop (p.reverse.dropWhile isSpace).reverse 0 0)

/-- `formats/xml/m_xml_reader.c:376-411`, `M_xml_read_attribute_explode`; the number of rounds is bounded by the length. -/
def explodeAt (ch : UInt8) : Nat → List UInt8 → List (List UInt8)
  | 0, s => [s]
  | n + 1, s => match findUnquoted ch s 0 with
    | none => [s]
    | some i => s.take i :: explodeAt ch n (s.drop (i + 1))

/-- `M_xml_read_attribute_explode`. -/
def explodeUnq (ch : UInt8) (s : List UInt8) : List (List UInt8) := explodeAt ch s.length s

/-- `formats/xml/m_xml_reader.c:418-434`, `M_xml_read_strip_surrounding_quotes`, or the string itself (468-479). -/
def unquoteVal (s : List UInt8) : List UInt8 :=
  match s with
  | [] => s
  | c :: r => if c ≠ 39 ∧ c ≠ 34 then s else if s.getLast? = some c then r.take (s.length - 2) else s

/-- `formats/xml/m_xml.c:646-674`, `M_xml_node_insert_attribute` without limit and without overwriting; `none` is failure. -/
def insertAttr (as : Attrs) (k : List UInt8) (v : Option (List UInt8)) : Option Attrs :=
  match v with
  | none => none
  | some v => if k = [] then none else if as.any fun a => eq true a.1 k then none else some (as ++ [(k, v)])

/-- `formats/xml/m_xml_reader.c:464-500`: the loop over the attributes. -/
def attrsLoop (fl : RFlags) : Attrs → List (List UInt8) → Option Attrs
  | as, [] => some as
  | as, kv :: l =>
    let p := explodeUnq 61 kv
    let k := unquoteVal (p.headD [])
    let v := (p[1]?).map unquoteVal
    let v := if fl.rawAttrs then v else some (attrDecode (v.getD []))
    (insertAttr as k v).bind fun as => attrsLoop fl as l

/-- `formats/xml/m_xml_reader.c:443-505`, `M_xml_read_tag_attributes`. -/
def readAttrs (fl : RFlags) (d : List UInt8) : Option Attrs :=
  match strip d with
  | none => some []
  | some s => attrsLoop fl [] (explodeUnq 32 (cstr s))

/-- An open element: its name, its attributes, and its children so far, last one first. -/
structure Frame where
  name : List UInt8
  attrs : Attrs
  kids : List Node

/-- The state of the reader: the open elements, innermost first, and the children of the document so far, last one first. -/
structure St where
  frames : List Frame
  doc : List Node

/-- Append a node to the children of the current level. -/
def St.add (st : St) (n : Node) : St :=
  match st.frames with
  | [] => { st with doc := n :: st.doc }
  | f :: l => { st with frames := { f with kids := n :: f.kids } :: l }

/-- `formats/xml/m_xml_reader.c:510-597`, `M_xml_read_tag_process`.  `m` is the memory from the data of the tag on. -/
def tagProcess (fl : RFlags) (st : St) (i : Info) (m : List UInt8) : Res St :=
  match i.ty with
  | .decl =>
    if i.name = [] then .err .generic
    else if 0 ∉ m then .ub
    else .ok (st.add (.decl i.name (cstr m)))
  | .pi =>
    if i.name = [] then .err .generic
    else match readAttrs fl i.body with
      | none => .err .attrExists
      | some as => .ok (st.add (.pi i.name as []))
  | .empty =>
    if i.name = [] then .err .generic
    else match readAttrs fl i.body with
      | none => .err .attrExists
      | some as => .ok (st.add (.elem i.name as []))
  | .start =>
    if i.name = [] then .err .generic
    else match readAttrs fl i.body with
      | none => .err .attrExists
      | some as => .ok { st with frames := ⟨i.name, as, []⟩ :: st.frames }
  | .endTag =>
    match st.frames with
    | [] => .err .ineligibleForClose
    | f :: l =>
      if eq fl.tagCasecmp i.name f.name = false then .err .unexpectedClose
      else .ok (St.add { st with frames := l } (.elem f.name f.attrs f.kids.reverse))
  | .cdata =>
    if fl.rawText then (if 0 ∉ m then .ub else .ok (st.add (.text (cstr m))))
    else .ok (st.add (.text (entDecode i.body (m.drop i.body.length))))
  | .comment => if fl.ignoreComments then .ok st else .ok (st.add (.comment (trim (cstr i.body))))

/-- `formats/xml/m_xml_reader.c:613-629`, `M_xml_read_tag`: the new state and the data behind the tag. -/
def readTag (fl : RFlags) (after : List UInt8) (st : St) (d : List UInt8) : Res (St × List UInt8) :=
  (tagInfo d).bind fun i => (tagProcess fl st i (i.data ++ after)).bind fun st => .ok (st, i.rest)

/-- `formats/xml/m_xml_reader.c:640-682`, `M_xml_read_text`: the new state and the data behind the text. -/
def readText (fl : RFlags) (st : St) (d : List UInt8) : St × List UInt8 :=
  let t := d.takeWhile (· ≠ 60)
  let t' := ((t.dropWhile isSpace).reverse.dropWhile isSpace).reverse
  (st.add (.text (if fl.rawText then cstr t' else entDecode t' [0])), d.drop t.length)

/-- `formats/xml/m_xml_reader.c:737-778`: the loop of `M_xml_read`; `multi` tells that the caller asks how much was processed.  The
result is the state and what is left. -/
def readLoop (fl : RFlags) (multi : Bool) (after : List UInt8) : Nat → St → List UInt8 → Res (St × List UInt8)
  | 0, _, _ => .ub
  | _ + 1, st, [] => .ok (st, [])
  | n + 1, st, c :: r =>
    if isSpace c then readLoop fl multi after n st r
    else if st.frames.isEmpty ∧ st.doc.any Node.isElem then
      if multi then .ok (st, c :: r) else .err .expectedEnd
    else if c = 60 then (readTag fl after st (c :: r)).bind fun x => readLoop fl multi after n x.1 x.2
    else readLoop fl multi after n (readText fl st (c :: r)).1 (readText fl st (c :: r)).2

/-- `formats/xml/m_xml_reader.c:709-798`, `M_xml_read`: the children of the document and what is left of the data. -/
def read (fl : RFlags) (multi : Bool) (d after : List UInt8) : Res (List Node × List UInt8) :=
  if d = [] then .err .misuse
  else (readLoop fl multi after (d.length + 1) ⟨[], []⟩ d).bind fun x =>
    if x.1.frames ≠ [] then .err .missingCloseTag
    else if x.1.doc.any Node.isElem = false then .err .noElements
    else .ok (x.1.doc.reverse, x.2)

end Verif.Xml
