[
{
"file": "Ini/Model",
"def": "step",
"old": "ceq c st.quote ∧ onc = false then",
"new": "ceq c st.quote then",
"claim": "a quote in a comment swallows the lines behind it"
},
{
"file": "Ini/Model",
"def": "step",
"old": "st.quote = st.escape ∧ ceq next st.quote then .skip2",
"new": "st.quote = st.escape ∧ ceq next st.quote then .skip",
"claim": "a doubled quote is taken as one"
},
{
"file": "Ini/Model",
"def": "step",
"old": "else .go (!onq)",
"new": "else .go onq",
"claim": "quotes do not protect line ends"
},
{
"file": "Ini/Model",
"def": "walk",
"old": "[], _, _, _, cur => if cur = [] then [] else [cur]",
"new": "[], _, _, _, cur => [cur]",
"claim": "a line end at the end of the file gives one more line"
},
{
"file": "Ini/Model",
"def": "walk",
"old": "| .go onq => if ceq c st.delim ∧ onq = false then [cur] else [cur ++ [c]]",
"new": "| .go onq => if ceq c st.delim ∧ onq = false then [cur] else [cur]",
"claim": "the last character of a file without a line end is lost"
},
{
"file": "Ini/Model",
"def": "walk",
"old": "cur :: walk st z (d :: r) (some (if z then 0 else c)) onq false []",
"new": "cur :: walk st z (d :: r) (some (if z then 0 else c)) onq onc []",
"claim": "a comment goes on in the next line"
},
{
"file": "Ini/Model",
"def": "walk",
"old": "onc || (st.comment ≠ 0 ∧ ceq c st.comment ∧ onq = false)",
"new": "onc || (st.comment ≠ 0 ∧ ceq c st.comment)",
"claim": "a comment character in quotes begins a comment"
},
{
"file": "Ini/Model",
"def": "walk",
"old": "| .skip2 => walk st z r (some d) onq onc (cur ++ [c, d])",
"new": "| .skip2 => walk st z r (some d) onq onc (cur ++ [c])",
"claim": "one of two quotes is lost"
},
{
"file": "Ini/Model",
"def": "parseComment",
"old": ".comment (line.drop 1)",
"new": ".comment line",
"claim": "comments grow by a comment character"
},
{
"file": "Ini/Model",
"def": "parseSection",
"old": "some (.section (trim name)",
"new": "some (.section name",
"claim": "white space around the name of a section belongs to it"
},
{
"file": "Ini/Model",
"def": "parseSection",
"old": "some (trim t)",
"new": "some t",
"claim": "white space before a comment belongs to it"
},
{
"file": "Ini/Model",
"def": "kvOf",
"old": "some (_, []) => some (.kv k (some []) none)",
"new": "some (_, []) => some (.kv k none none)",
"claim": "an empty value is read as none"
},
{
"file": "Ini/Model",
"def": "kvOf",
"old": "some (_, [v]) => some (.kv k (some (unquote v st.quote st.escape)) none)",
"new": "some (_, [v]) => some (.kv k (some (trim v)) none)",
"claim": "quotes are not removed"
},
{
"file": "Ini/Model",
"def": "kvOf",
"old": "(some (trim c))",
"new": "(some c)",
"claim": "white space before a comment belongs to it"
},
{
"file": "Ini/Model",
"def": "parseKv",
"old": "!(ceq c st.kv || ceq c st.comment)",
"new": "!(ceq c st.kv)",
"claim": "a comment behind a key without a value belongs to the key"
},
{
"file": "Ini/Model",
"def": "parseKv",
"old": "else kvOf st (trim k)",
"new": "else kvOf st k",
"claim": "white space behind a key belongs to it"
},
{
"file": "Ini/Model",
"def": "parseKv",
"old": "explodeQ st.comment st.quote st.escape 2 r",
"new": "explodeQ st.comment st.quote st.escape 0 r",
"claim": "a comment ends at the next comment character"
},
{
"file": "Ini/Model",
"def": "parseKv",
"old": "explodeQ st.comment st.quote st.escape 2 r",
"new": "explodeQ st.comment st.escape st.quote 2 r",
"claim": "quote and escape character are swapped"
},
{
"file": "Ini/Model",
"def": "parseLine",
"old": "match trim s with",
"new": "match s with",
"claim": "white space before a line belongs to it"
},
{
"file": "Ini/Model",
"def": "parseLine",
"old": "if c = st.comment then",
"new": "if c = 35 then",
"claim": "the comment character of the settings is not used"
},
{
"file": "Ini/Model",
"def": "handleKv",
"old": "let fk := fullKey sec ik",
"new": "let fk := fullKey none ik",
"claim": "keys of sections are stored without the section"
},
{
"file": "Ini/Model",
"def": "handleKv",
"old": "if st.dup = .collect then (kvInsert i2 fk val).2 else",
"new": "if st.dup = .collect then (kvSet i2 fk val).2 else",
"claim": "values are not collected"
},
{
"file": "Ini/Model",
"def": "handleKv",
"old": "else (kvSet i2 fk val).2",
"new": "else (kvInsert i2 fk val).2",
"claim": "values are collected though they should be replaced"
},
{
"file": "Ini/Model",
"def": "readElem",
"old": "⟨i, some sn, secGet i sn⟩",
"new": "⟨i, r.sec, secGet i sn⟩",
"claim": "the name of the section does not change"
},
{
"file": "Ini/Model",
"def": "readElem",
"old": "let sn := intKey r.ini.ign name",
"new": "let sn := name",
"claim": "blanks in the names of sections are not ignored"
},
{
"file": "Ini/Model",
"def": "readLines",
"old": "readLines st ls (readElem st r e)",
"new": "readLines st ls r",
"claim": "the lines have no effect"
},
{
"file": "Ini/Model",
"def": "explode",
"old": "some (walk st true s none false false [])\n",
"new": "some (walk st true s none true false [])\n",
"claim": "the first line begins within quotes"
}
]