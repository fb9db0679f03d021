[
 {
  "file": "Xml/Model",
  "def": "encodeTable",
  "old": "(38, [38, 97, 109, 112, 59]), ",
  "new": "",
  "claim": "ampersands are escaped in text"
 },
 {
  "file": "Xml/Model",
  "def": "encodeTable",
  "old": ", (60, [38, 108, 116, 59])",
  "new": "",
  "claim": "less-than is escaped in text"
 },
 {
  "file": "Xml/Model",
  "def": "encodeTable",
  "old": "(62, [38, 103, 116, 59])",
  "new": "(62, [38, 108, 116, 59])",
  "claim": "greater-than is escaped as itself"
 },
 {
  "file": "Xml/Model",
  "def": "attrTable",
  "old": "(34, [38, 113, 117, 111, 116, 59]), ",
  "new": "",
  "claim": "quotes are escaped in attributes"
 },
 {
  "file": "Xml/Model",
  "def": "attrTable",
  "old": "[38, 108, 116, 59]",
  "new": "[38, 108, 116]",
  "claim": "references end with a semicolon"
 },
 {
  "file": "Xml/Model",
  "def": "decodeTable",
  "old": "(10, [38, 35, 120, 65, 59])",
  "new": "(13, [38, 35, 120, 65, 59])",
  "claim": "&#xA; is a line feed"
 },
 {
  "file": "Xml/Model",
  "def": "encodeLoop",
  "old": "(out ++ pend ++ e.2)",
  "new": "(out ++ e.2)",
  "claim": "text before an escape is kept"
 },
 {
  "file": "Xml/Model",
  "def": "encodeLoop",
  "old": "| [], pend, out => out ++ pend",
  "new": "| [], pend, out => out",
  "claim": "text after the last escape is kept"
 },
 {
  "file": "Xml/Model",
  "def": "encodeLoop",
  "old": "encodeLoop t s [] (out ++ pend ++ e.2)",
  "new": "encodeLoop t s pend (out ++ pend ++ e.2)",
  "claim": "text before an escape is written once"
 },
 {
  "file": "Xml/Model",
  "def": "decodeLoop",
  "old": "(e.2.length - 1)",
  "new": "e.2.length",
  "claim": "no byte after a reference is lost"
 },
 {
  "file": "Xml/Model",
  "def": "decodeLoop",
  "old": "(e.2.length - 1)",
  "new": "(e.2.length - 2)",
  "claim": "all of a reference is replaced"
 },
 {
  "file": "Xml/Model",
  "def": "decodeLoop",
  "old": "e.2 e.2.length)",
  "new": "e.2 (e.2.length - 1))",
  "claim": "a reference is compared in full"
 },
 {
  "file": "Xml/Model",
  "def": "decodeLoop",
  "old": "| none => c :: decodeLoop t after s 0",
  "new": "| none => decodeLoop t after s 0",
  "claim": "an ampersand that starts no reference is kept"
 },
 {
  "file": "Xml/Model",
  "def": "writeVal",
  "old": "(if fl.rawAttrs then v else attrEncode v)",
  "new": "v",
  "claim": "attribute values are escaped"
 },
 {
  "file": "Xml/Model",
  "def": "writeVal",
  "old": "attrEncode v",
  "new": "entEncode v",
  "claim": "attribute values are read back"
 },
 {
  "file": "Xml/Model",
  "def": "writeName",
  "old": "if fl.lowerTags then n.map toLower else n",
  "new": "n.map toLower",
  "claim": "names are written as they are"
 },
 {
  "file": "Xml/Model",
  "def": "writeAttrs",
  "old": "32 :: (if",
  "new": "(if",
  "claim": "attributes are separated"
 },
 {
  "file": "Xml/Model",
  "def": "writeDeclAttrs",
  "old": "32 :: k ++ writeVal fl a.2",
  "new": "32 :: k ++ writeVal fl a.1",
  "claim": "declaration attributes keep their values"
 },
 {
  "file": "Xml/Model",
  "def": "writeAttrs",
  "old": "!(isDec && declKeys",
  "new": "!(declKeys",
  "claim": "version is written for elements too"
 },
 {
  "file": "Xml/Model",
  "def": "openAttrs",
  "old": "eq false name [120, 109, 108]",
  "new": "eq true name [120, 109, 108]",
  "claim": "only <?xml reorders its attributes"
 },
 {
  "file": "Xml/Model",
  "def": "writeNode",
  "old": "if fl.rawText then s else entEncode s",
  "new": "s",
  "claim": "text is escaped"
 },
 {
  "file": "Xml/Model",
  "def": "writeNode",
  "old": "| _ => (match kids with | [.text _] => [] | _ => indent fl depth) ++ [60, 47] ++ writeName fl name",
  "new": "| _ => (match kids with | [.text _] => [] | _ => indent fl depth) ++ [60] ++ writeName fl name",
  "claim": "end tags have a slash"
 },
 {
  "file": "Xml/Model",
  "def": "writeNode",
  "old": "if ctx.many && !ctx.nextText then newline fl",
  "new": "if !ctx.nextText then newline fl",
  "claim": "none: white space around a text does not matter"
 },
 {
  "file": "Xml/Model",
  "def": "writeNode",
  "old": "[60, 33, 45, 45] ++ tagData s ++ [32, 45, 45, 62]",
  "new": "[60, 33, 45, 45] ++ s ++ [45, 45, 62]",
  "claim": "none for trimmed comments unless they end in a dash"
 },
 {
  "file": "Xml/Model",
  "def": "writeNode",
  "old": "(match kids with | [] => (if fl.selfcloseSpace then [32] else []) ++ [47] | _ => [])",
  "new": "[]",
  "claim": "an empty element is closed"
 },
 {
  "file": "Xml/Model",
  "def": "writeKids",
  "old": "n.isText l",
  "new": "false l",
  "claim": "none: only indentation"
 },
 {
  "file": "Xml/Model",
  "def": "findUnquoted",
  "old": "if c = ch \u2227 q = 0 then some 0",
  "new": "if c = ch then some 0",
  "claim": "a greater-than in a value does not end the tag"
 },
 {
  "file": "Xml/Model",
  "def": "findUnquoted",
  "old": "if c = q then 0 else q",
  "new": "0",
  "claim": "the other quote does not end a value"
 },
 {
  "file": "Xml/Model",
  "def": "findUnquoted",
  "old": "c = 39 \u2228 c = 34",
  "new": "c = 34",
  "claim": "none for written documents"
 },
 {
  "file": "Xml/Model",
  "def": "findReverse",
  "old": "if c = ch then some r.length else none",
  "new": "if c = ch then some (r.length + 1) else none",
  "claim": "the slash is not part of the attributes"
 },
 {
  "file": "Xml/Model",
  "def": "tagEnd",
  "old": "d.drop (i + n)",
  "new": "d.drop i",
  "claim": "reading goes on behind the tag"
 },
 {
  "file": "Xml/Model",
  "def": "tagEnd",
  "old": "| some j => .ok (.empty, d.take j,",
  "new": "| some j => .ok (.start, d.take j,",
  "claim": "a self-closed element is empty"
 },
 {
  "file": "Xml/Model",
  "def": "tagPos",
  "old": "some r => .ok (r.map (\u00b7, 3))\n  | .cdata",
  "new": "some r => .ok (r.map (\u00b7, 1))\n  | .cdata",
  "claim": "a comment is read in full"
 },
 {
  "file": "Xml/Model",
  "def": "tagType",
  "old": "(.comment, r.drop 2)",
  "new": "(.comment, r.drop 1)",
  "claim": "comment text is read exactly"
 },
 {
  "file": "Xml/Model",
  "def": "tagType",
  "old": "if c = 47 then .ok (.endTag, r.dropWhile isSpace)",
  "new": "if c = 47 then .ok (.endTag, r.drop 1)",
  "claim": "end tag names are read in full"
 },
 {
  "file": "Xml/Model",
  "def": "tagInfo",
  "old": "e.2.1.drop (cstr n).length",
  "new": "e.2.1",
  "claim": "the name is no attribute"
 },
 {
  "file": "Xml/Model",
  "def": "stripLoop",
  "old": "c :: stripLoop s (if c = q then 0 else q) req",
  "new": "c :: stripLoop s q req",
  "claim": "a value ends at its quote"
 },
 {
  "file": "Xml/Model",
  "def": "stripLoop",
  "old": "if req \u2260 -1 then 1 else req",
  "new": "req",
  "claim": "attributes are separated"
 },
 {
  "file": "Xml/Model",
  "def": "stripLoop",
  "old": "if q \u2260 0 then c ::",
  "new": "if q \u2260 0 \u2227 isSpace c = false then c ::",
  "claim": "white space in values is kept"
 },
 {
  "file": "Xml/Model",
  "def": "unquoteVal",
  "old": "r.take (s.length - 2)",
  "new": "r.take (s.length - 1)",
  "claim": "quotes are removed from values"
 },
 {
  "file": "Xml/Model",
  "def": "insertAttr",
  "old": "as ++ [(k, v)]",
  "new": "(k, v) :: as",
  "claim": "attributes keep their order"
 },
 {
  "file": "Xml/Model",
  "def": "insertAttr",
  "old": "eq true a.1 k",
  "new": "eq false a.1 k",
  "claim": "none for written documents: names differ anyway"
 },
 {
  "file": "Xml/Model",
  "def": "attrsLoop",
  "old": "explodeUnq 61 kv",
  "new": "explodeUnq 58 kv",
  "claim": "the value follows the equals sign"
 },
 {
  "file": "Xml/Model",
  "def": "attrsLoop",
  "old": "if fl.rawAttrs then v else some (attrDecode (v.getD []))",
  "new": "v",
  "claim": "values are unescaped"
 },
 {
  "file": "Xml/Model",
  "def": "readAttrs",
  "old": "explodeUnq 32",
  "new": "explodeUnq 9",
  "claim": "attributes are split at spaces"
 },
 {
  "file": "Xml/Model",
  "def": "St.add",
  "old": "kids := n :: f.kids",
  "new": "kids := [n]",
  "claim": "all children are kept"
 },
 {
  "file": "Xml/Model",
  "def": "St.add",
  "old": "doc := n :: st.doc",
  "new": "doc := st.doc ++ [n]",
  "claim": "nodes of the document keep their order"
 },
 {
  "file": "Xml/Model",
  "def": "tagProcess",
  "old": "f.kids.reverse",
  "new": "f.kids",
  "claim": "children keep their order"
 },
 {
  "file": "Xml/Model",
  "def": "tagProcess",
  "old": "if eq fl.tagCasecmp i.name f.name = false then .err .unexpectedClose\n      else ",
  "new": "",
  "claim": "the end tag must match"
 },
 {
  "file": "Xml/Model",
  "def": "tagProcess",
  "old": ".ok (st.add (.pi i.name as []))",
  "new": ".ok st",
  "claim": "processing instructions are kept"
 },
 {
  "file": "Xml/Model",
  "def": "tagProcess",
  "old": "trim (cstr i.body)",
  "new": "cstr i.body",
  "claim": "comments are trimmed"
 },
 {
  "file": "Xml/Model",
  "def": "tagProcess",
  "old": "frames := \u27e8i.name, as, []\u27e9 :: st.frames",
  "new": "frames := \u27e8i.name, [], []\u27e9 :: st.frames",
  "claim": "attributes of a start tag are kept"
 },
 {
  "file": "Xml/Model",
  "def": "readText",
  "old": "if fl.rawText then cstr t' else entDecode t' [0]",
  "new": "cstr t'",
  "claim": "text is unescaped"
 },
 {
  "file": "Xml/Model",
  "def": "readText",
  "old": "((t.dropWhile isSpace).reverse.dropWhile isSpace).reverse",
  "new": "t",
  "claim": "indentation is not part of the text"
 },
 {
  "file": "Xml/Model",
  "def": "readText",
  "old": "d.drop t.length",
  "new": "d.drop (t.length + 1)",
  "claim": "reading goes on at the tag behind a text"
 },
 {
  "file": "Xml/Model",
  "def": "readLoop",
  "old": "if isSpace c then readLoop fl multi after n st r\n    else ",
  "new": "",
  "claim": "indentation is no text"
 },
 {
  "file": "Xml/Model",
  "def": "readLoop",
  "old": "st.frames.isEmpty \u2227 st.doc.any",
  "new": "st.doc.any",
  "claim": "the root element may have content after a processing instruction"
 },
 {
  "file": "Xml/Model",
  "def": "read",
  "old": "x.1.doc.reverse",
  "new": "x.1.doc",
  "claim": "nodes of the document keep their order"
 },
 {
  "file": "Xml/Model",
  "def": "read",
  "old": "if x.1.frames \u2260 [] then .err .missingCloseTag\n    else ",
  "new": "",
  "claim": "all elements must be closed"
 }
]