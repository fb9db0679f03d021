[
{
"file": "Ini/Model",
"def": "updateOne",
"old": "(some (.kv key ((kvs.get fk 0).getD none) comment), (kvs.removeAt fk 0).2)",
"new": "(some (.kv key val comment), (kvs.removeAt fk 0).2)",
"claim": "a written key has its current value"
},
{
"file": "Ini/Model",
"def": "updateOne",
"old": "if orig.len fk = 1 then (some (.kv key ((kvs.get fk 0).getD none) comment), (kvs.removeAt fk 0).2)",
"new": "if orig.len fk = 1 then (some (.kv key ((kvs.get fk 0).getD none) comment), kvs)",
"claim": "a key is written once"
},
{
"file": "Ini/Model",
"def": "updateOne",
"old": "if kvs.len fk = 0 then (none, (kvs.remove fk).2)",
"new": "if kvs.len fk = 0 then (some (.kv key val comment), (kvs.remove fk).2)",
"claim": "a removed key is not written"
},
{
"file": "Ini/Model",
"def": "updateOne",
"old": "else (none, kvs)\n    if",
"new": "else (some (.kv key val comment), kvs)\n    if",
"claim": "a key with several values: old elements go"
},
{
"file": "Ini/Model",
"def": "updateSecs",
"old": "let q := updateSecs st orig ss r.2",
"new": "let q := updateSecs st orig ss kvs",
"claim": "what a section took is not written again"
},
{
"file": "Ini/Model",
"def": "updateVals",
"old": "let q := updateSecs st ini.kvs ini.sections r.2",
"new": "let q := updateSecs st ini.kvs ini.sections kvs",
"claim": "sections go on with what is left"
},
{
"file": "Ini/Model",
"def": "firstSec",
"old": "| .section _ _ :: _ => 0",
"new": "| .section _ _ :: es => firstSec es + 1",
"claim": "keys without a section come before the sections"
},
{
"file": "Ini/Model",
"def": "addOne",
"old": "some (i + 1))",
"new": "some i)",
"claim": "values of a key in order"
},
{
"file": "Ini/Model",
"def": "addOne",
"old": "let n := { n with elements := n.elements ++ [.section s none] }",
"new": "let n := { n with elements := .section s none :: n.elements }",
"claim": "a new section comes at the end"
},
{
"file": "Ini/Model",
"def": "addOne",
"old": "let e := Elem.kv ((splitKey fk).2.getD []) v none",
"new": "let e := Elem.kv fk v none",
"claim": "the key in a section is without the section"
},
{
"file": "Ini/Model",
"def": "addOne",
"old": "(setElems ini w (elems ini w ++ [e]), idx)",
"new": "(setElems ini w (e :: elems ini w), idx)",
"claim": "values of a key in a section in order"
},
{
"file": "Ini/Model",
"def": "addOne",
"old": "(setElems n (secGet n s) (elems n (secGet n s) ++ [e]), idx)",
"new": "(n, idx)",
"claim": "the first key of a new section is written"
},
{
"file": "Ini/Model",
"def": "pruneList",
"old": "| .kv k _ _ => kvs.has (fullKey sec k)",
"new": "| .kv k _ _ => kvs.has k",
"claim": "keys in sections are kept"
},
{
"file": "Ini/Model",
"def": "prune",
"old": "hasKv p.2 }",
"new": "!hasKv p.2 }",
"claim": "sections with keys are kept"
},
{
"file": "Ini/Model",
"def": "updateTree",
"old": "prune (addAll r.2.enum r.1 none)",
"new": "prune r.1",
"claim": "new keys are written"
},
{
"file": "Ini/Model",
"def": "updateTree",
"old": "prune (addAll r.2.enum r.1 none)",
"new": "prune (addAll ini.kvs.enum r.1 none)",
"claim": "a key is written once"
},
{
"file": "Ini/Model",
"def": "prettyKey",
"old": "look ini.lookup (fullKey sec k)",
"new": "look ini.lookup k",
"claim": "a key is printed under its name"
},
{
"file": "Ini/Model",
"def": "treeText",
"old": "writeSection st ini n ++ treeText st ini es (some n)",
"new": "treeText st ini es (some n)",
"claim": "the keys of sections are written"
},
{
"file": "Ini/Model",
"def": "treeText",
"old": "writeElem st (look ini.lookup (fullKey (some n) [])) (.section n c) ++ writeSection st ini n",
"new": "writeSection st ini n ++ writeElem st (look ini.lookup (fullKey (some n) [])) (.section n c)",
"claim": "a header comes before its keys"
},
{
"file": "Ini/Model",
"def": "valText",
"old": "(quoteIf v st.quote st.escape st.delim).getD v",
"new": "v",
"claim": "values are quoted if necessary"
},
{
"file": "Ini/Model",
"def": "valText",
"old": "quoteIf v st.quote st.escape st.delim",
"new": "quoteIf v st.quote st.escape st.kv",
"claim": "line ends are quoted"
},
{
"file": "Ini/Model",
"def": "valText",
"old": "quoteIf v st.quote st.escape st.delim",
"new": "quoteIf v st.escape st.quote st.delim",
"claim": "quote and escape character in their places"
},
{
"file": "Ini/Model",
"def": "valPart",
"old": "[st.kv] ++ (if st.padAfter",
"new": "[st.comment] ++ (if st.padAfter",
"claim": "key and value are parted by the kv character"
},
{
"file": "Ini/Model",
"def": "writeKv",
"old": "k ++ valPart st val ++ tailComment st comment ++ lineEnd st",
"new": "k ++ valPart st val ++ tailComment st comment",
"claim": "every key on a line of its own"
},
{
"file": "Ini/Model",
"def": "lineEnd",
"old": "st.ending.getD [st.delim]",
"new": "st.ending.getD [10]",
"claim": "lines end with the delimiter"
},
{
"file": "Ini/Model",
"def": "writeElem",
"old": "[91] ++ k ++ [93] ++ tailComment",
"new": "[91] ++ k ++ tailComment",
"claim": "headers are closed"
},
{
"file": "Ini/Model",
"def": "write",
"old": "(treeText st i i.elements none, i)",
"new": "(treeText st ini ini.elements none, i)",
"claim": "what is written is up to date"
},
{
"file": "Ini/Model",
"def": "secInsert",
"old": "ini.lookup (intKey ini.ign (fullKey (some name) [])) name }",
"new": "ini.lookup (intKey ini.ign name) name }",
"claim": "printed names of sections"
}
]