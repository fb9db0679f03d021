[
{
"file": "Dict/Model",
"def": "quoteLoop",
"old": "c = ch.delim ∨ c = ch.kv)",
"new": "c = ch.kv)",
"claim": "a value with the delimiter is quoted"
},
{
"file": "Dict/Model",
"def": "quoteLoop",
"old": "∨ c = ch.kv) then",
"new": "∨ c = ch.delim) then",
"claim": "a value with the key/value delimiter is quoted"
},
{
"file": "Dict/Model",
"def": "quoteLoop",
"old": "c = ch.quote ∨ c = ch.escape ∨ (isPrint",
"new": "c = ch.quote ∨ (isPrint",
"claim": "a value with the escape character is escaped"
},
{
"file": "Dict/Model",
"def": "quoteLoop",
"old": "c = ch.quote ∨ c = ch.escape ∨ (isPrint",
"new": "c = ch.escape ∨ (isPrint",
"claim": "a value with the quote is escaped"
},
{
"file": "Dict/Model",
"def": "quoteType",
"old": "fl.alwaysQuote = true ∨ v = []",
"new": "fl.alwaysQuote = true",
"claim": "an empty value is quoted"
},
{
"file": "Dict/Model",
"def": "quoteType",
"old": "(if isSpace c then .on else t)",
"new": "t",
"claim": "a value that ends in white space is quoted"
},
{
"file": "Dict/Model",
"def": "quoteType",
"old": "if v.head?.any isSpace then some (quoteLoop ch fl v .on)",
"new": "if v.head?.any isSpace then some (quoteLoop ch fl v .off)",
"claim": "a value that begins with white space is quoted"
},
{
"file": "Dict/Model",
"def": "escVal",
"old": "if c = ch.quote ∨ c = ch.escape then [ch.escape]",
"new": "if c = ch.quote then [ch.escape]",
"claim": "the escape character is escaped"
},
{
"file": "Dict/Model",
"def": "escVal",
"old": "if c = ch.quote ∨ c = ch.escape then [ch.escape]",
"new": "if c = ch.quote ∨ c = ch.escape then [ch.quote]",
"claim": "the escape character is put in front"
},
{
"file": "Dict/Model",
"def": "sep",
"old": "then [13, 10] else [c]",
"new": "then [13] else [c]",
"claim": "the delimiter is written"
},
{
"file": "Dict/Model",
"def": "valText",
"old": "(if t = .escape then escVal ch fl (val.getD []) else val.getD []) ++ q",
"new": "(if t = .escape then escVal ch fl (val.getD []) else val.getD [])",
"claim": "the closing quote is written"
},
{
"file": "Dict/Model",
"def": "serLoop",
"old": "k ++ sep fl ch.kv ++ valText",
"new": "k ++ sep fl ch.delim ++ valText",
"claim": "the key/value delimiter is written"
},
{
"file": "Dict/Model",
"def": "serLoop",
"old": "++ sep fl ch.delim ++ rest",
"new": "++ rest",
"claim": "the delimiter is written"
},
{
"file": "Dict/Model",
"def": "unescLoop",
"old": "if on = false ∧ c = e then",
"new": "if c = e then",
"claim": "an escaped escape character is kept"
},
{
"file": "Dict/Model",
"def": "unescLoop",
"old": "else c :: unescLoop e cs false",
"new": "else c :: unescLoop e cs on",
"claim": "the escape holds for one character"
},
{
"file": "Dict/Model",
"def": "fromUnquote",
"old": "s.tail.take (s.length - 2)",
"new": "s.tail.take (s.length - 1)",
"claim": "both quotes are taken off"
},
{
"file": "Dict/Model",
"def": "fromUnquote",
"old": "if s = [] then none",
"new": "if s = [] then some []",
"claim": "a missing value is null"
},
{
"file": "Dict/Model",
"def": "fromUnquote",
"old": "s.length ≥ 2 ∧ s.head?",
"new": "s.length ≥ 2 ∨ s.head?",
"claim": "only quotes are taken off"
},
{
"file": "Dict/Model",
"def": "deserLoop",
"old": "if n ≠ 2 then .fail",
"new": "if n ≠ 2 then deserLoop ch trimWs ls out",
"claim": "a line without key/value delimiter makes reading fail"
},
{
"file": "Dict/Model",
"def": "deserLoop",
"old": "explodeQ ch.kv ch.quote ch.escape 2 l",
"new": "explodeQ ch.kv ch.quote ch.escape 0 l",
"claim": "a value may hold the key/value delimiter in quotes only; null values and quoted values come back"
},
{
"file": "Dict/Model",
"def": "deserLoop",
"old": "let k := if trimWs then trim k else k",
"new": "let k := k",
"claim": "the carriage return is trimmed off the key"
},
{
"file": "Dict/Model",
"def": "deserLoop",
"old": "let l := if trimWs then trim l else l\n    if l = [] then deserLoop ch trimWs ls out",
"new": "let l := if trimWs then trim l else l\n    if l = [] then .fail",
"claim": "empty lines are skipped"
},
{
"file": "Dict/Model",
"def": "deserLoop",
"old": "(out ++ [(k, fromUnquote",
"new": "([(k, fromUnquote",
"claim": "all pairs are inserted"
}
]