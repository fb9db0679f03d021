[
 {
  "file": "Xml/Model",
  "def": "findUnquoted",
  "old": "c = 39 \u2228 c = 34",
  "new": "c = 34",
  "claim": "a greater-than in single quotes does not end the tag"
 },
 {
  "file": "Xml/Model",
  "def": "insertAttr",
  "old": "eq true a.1 k",
  "new": "eq false a.1 k",
  "claim": "attribute names that differ in case only are refused"
 },
 {
  "file": "Xml/Model",
  "def": "insertAttr",
  "old": "if k = [] then none else ",
  "new": "",
  "claim": "attribute names are not empty"
 },
 {
  "file": "Xml/Model",
  "def": "insertAttr",
  "old": " else if as.any fun a => eq true a.1 k then none",
  "new": "",
  "claim": "attributes are not repeated"
 },
 {
  "file": "Xml/Model",
  "def": "tagProcess",
  "old": "| [] => .err .ineligibleForClose",
  "new": "| [] => .ok st",
  "claim": "an end tag needs a start tag"
 },
 {
  "file": "Xml/Model",
  "def": "tagProcess",
  "old": "eq fl.tagCasecmp i.name f.name",
  "new": "eq true i.name f.name",
  "claim": "names of tags are compared with case"
 },
 {
  "file": "Xml/Model",
  "def": "readLoop",
  "old": "if multi then .ok (st, c :: r) else .err .expectedEnd",
  "new": "if multi then .ok (st, c :: r) else .ok (st, [])",
  "claim": "nothing may follow the root"
 },
 {
  "file": "Xml/Model",
  "def": "readLoop",
  "old": "if multi then .ok (st, c :: r)",
  "new": "if multi then .ok (st, r)",
  "claim": "the rest starts behind the document"
 },
 {
  "file": "Xml/Model",
  "def": "readLoop",
  "old": "st.frames.isEmpty \u2227 st.doc.any Node.isElem",
  "new": "st.frames.isEmpty \u2227 st.doc.length > 5",
  "claim": "one root only"
 },
 {
  "file": "Xml/Model",
  "def": "read",
  "old": "else if x.1.doc.any Node.isElem = false then .err .noElements\n    ",
  "new": "",
  "claim": "a document has an element"
 },
 {
  "file": "Xml/Model",
  "def": "tagEnd",
  "old": "| some j => .ok (ty, d.take j, d.drop (i + n))\n      | .start",
  "new": "| some j => .ok (ty, d.take i, d.drop (i + n))\n      | .start",
  "claim": "the question mark is not part of the attributes"
 },
 {
  "file": "Xml/Model",
  "def": "tagEnd",
  "old": "| none => .err .missingPiEnd",
  "new": "| none => .ok (ty, d.take i, d.drop (i + n))",
  "claim": "processing instructions end with a question mark"
 },
 {
  "file": "Xml/Model",
  "def": "tagType",
  "old": "else if c = 60 then .err .invalidCharInStartTag\n    ",
  "new": "",
  "claim": "a tag does not start with two less-than signs"
 },
 {
  "file": "Xml/Model",
  "def": "tagType",
  "old": "r.take 7 = [91, 67, 68, 65, 84, 65, 91]",
  "new": "r.take 6 = [91, 67, 68, 65, 84, 65]",
  "claim": "CDATA sections start with a bracket"
 },
 {
  "file": "Xml/Model",
  "def": "tagInfo",
  "old": "if n = [] then .err .invalidStartTag\n        else ",
  "new": "",
  "claim": "tags have names"
 },
 {
  "file": "Xml/Model",
  "def": "stripLoop",
  "old": "else if c = 61 then c :: stripLoop s q (-1)",
  "new": "else if c = 61 then c :: stripLoop s q 0",
  "claim": "white space after the equals sign does not matter"
 },
 {
  "file": "Xml/Model",
  "def": "unquoteVal",
  "old": "c \u2260 39 \u2227 c \u2260 34",
  "new": "c \u2260 34",
  "claim": "single quotes are removed"
 },
 {
  "file": "Xml/Model",
  "def": "tagProcess",
  "old": "if fl.ignoreComments then .ok st else ",
  "new": "",
  "claim": "none of the text: comments are kept though not wanted"
 },
 {
  "file": "Xml/Model",
  "def": "tagProcess",
  "old": "| .cdata =>\n    if fl.rawText then (if 0 \u2209 m then .ub else .ok (st.add (.text (cstr m))))\n    else ",
  "new": "| .cdata =>\n    ",
  "claim": "none: references are decoded though not wanted"
 }
]