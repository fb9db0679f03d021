[
{
"file": "Parser/Model",
"def": "peekBytes",
"old": "p.len < n ∨ n = 0",
"new": "p.len < n",
"claim": "peeking zero bytes fails",
"tightened": [
"Verif.Parser.Shows",
"Verif.Parser.R.shows"
]
},
{
"file": "Parser/Model",
"def": "readBytes",
"old": "p.len < n ∨ n = 0",
"new": "p.len < n",
"claim": "reading zero bytes fails"
},
{
"file": "Bitlist/Model",
"def": "listLoop",
"old": "fl.dontPow2 = false ∧ t.id ≠ 0 ∧ Bithacks.isPow64 t.id.toNat = false",
"new": "False",
"claim": "entries of several bits are refused"
},
{
"file": "Bitlist/Model",
"def": "listLoop",
"old": "if bits &&& t.id = t.id then",
"new": "if bits &&& t.id ≠ 0 then",
"claim": "only whole entries are listed"
},
{
"file": "Bitlist/Model",
"def": "listLoop",
"old": "(bits &&& ~~~t.id)",
"new": "bits",
"claim": "listed bits are consumed"
},
{
"file": "Bitlist/Model",
"def": "listLoop",
"old": "if buf ≠ [] then buf ++ [delim] else buf",
"new": "buf ++ [delim]",
"claim": "no delimiter in front"
},
{
"file": "Bitlist/Model",
"def": "listLoop",
"old": "if buf ≠ [] then buf ++ [delim] else buf",
"new": "buf",
"claim": "delimiter between"
},
{
"file": "Bitlist/Model",
"def": "list",
"old": "fl.ignoreUnknown = false ∧ r.2 ≠ 0",
"new": "False",
"claim": "unknown bits are refused"
},
{
"file": "Bitlist/Model",
"def": "list",
"old": "fl.ignoreUnknown = false ∧ r.2 ≠ 0",
"new": "fl.ignoreUnknown = true ∧ r.2 ≠ 0",
"claim": "unknown bits are refused"
},
{
"file": "Bitlist/Model",
"def": "lookup",
"old": "eq (!cs)",
"new": "eq cs",
"claim": "case flag"
},
{
"file": "Bitlist/Model",
"def": "lookup",
"old": "some t.id else",
"new": "some 0 else",
"claim": "value of the entry"
},
{
"file": "Bitlist/Model",
"def": "parseLoop",
"old": "if fl.dontTrim then x else trim x",
"new": "x",
"claim": "white space is trimmed"
},
{
"file": "Bitlist/Model",
"def": "parseLoop",
"old": "if y = [] then parseLoop fl tab xs out",
"new": "if y = [] then none",
"claim": "empty parts are skipped"
},
{
"file": "Bitlist/Model",
"def": "parseLoop",
"old": "if fl.ignoreUnknown then parseLoop fl tab xs out else none",
"new": "parseLoop fl tab xs out",
"claim": "unknown names are refused"
},
{
"file": "Bitlist/Model",
"def": "parseLoop",
"old": "if fl.ignoreUnknown then parseLoop fl tab xs out else none",
"new": "none",
"claim": "unknown names may be ignored"
},
{
"file": "Bitlist/Model",
"def": "parseLoop",
"old": "fl.dontPow2 = false ∧ Bithacks.isPow64 id.toNat = false",
"new": "False",
"claim": "entries of several bits are refused"
},
{
"file": "Bitlist/Model",
"def": "parseLoop",
"old": "(out ||| id)",
"new": "(out ^^^ id)",
"claim": "repeated names are harmless"
},
{
"file": "Bitlist/Model",
"def": "parseLoop",
"old": "(out ||| id)",
"new": "id",
"claim": "all names count"
},
{
"file": "Bitlist/Model",
"def": "singleToInt",
"old": "eq true",
"new": "eq false",
"claim": "case-insensitive single lookup (round trip unaffected?)"
},
{
"file": "Bitlist/Model",
"def": "singleToStr",
"old": "if t.id = id",
"new": "if t.id &&& id = id",
"claim": "exact value"
},
{
"file": "Str/Model",
"def": "eqLoop",
"old": "(r ||| (",
"new": "(r &&& (",
"claim": "all bytes compared"
},
{
"file": "Str/Model",
"def": "eqLoop",
"old": "(if ci then toLower y else y)",
"new": "y",
"claim": "both sides folded"
},
{
"file": "Str/Model",
"def": "eqMaxInt",
"old": "if r.1 ≠ 0 then false",
"new": "if False then false",
"claim": "different bytes"
},
{
"file": "Str/Model",
"def": "eqMaxInt",
"old": "(r.2.2.1 ≠ [] ∧ r.2.2.2 = [])",
"new": "False",
"claim": "longer first string"
},
{
"file": "Str/Model",
"def": "eqMaxInt",
"old": "r.2.1 ≠ 0 ∧",
"new": "r.2.1 ≠ 1 ∧",
"claim": "length bound"
},
{
"file": "Str/Model",
"def": "eqStart",
"old": "b.length",
"new": "a.length",
"claim": "prefix length"
},
{
"file": "Str/Model",
"def": "eqEnd",
"old": "(a.drop (a.length - b.length))",
"new": "a",
"claim": "suffix"
},
{
"file": "Str/Model",
"def": "eqEnd",
"old": "b.length > a.length",
"new": "b.length ≥ a.length",
"claim": "whole string as suffix"
},
{
"file": "Str/Model",
"def": "casestrLoop",
"old": "needle.length > (c :: cs).length",
"new": "needle.length ≥ (c :: cs).length",
"claim": "match at the very end"
},
{
"file": "Str/Model",
"def": "casestrLoop",
"old": "eqMaxInt true (c :: cs)",
"new": "eqMaxInt false (c :: cs)",
"claim": "case-insensitive search"
},
{
"file": "Str/Model",
"def": "find",
"old": "some 0 else none",
"new": "none else none",
"claim": "empty needle"
},
{
"file": "Str/Model",
"def": "cpyMax",
"old": "(rd src 0 (min n (destLen - 1)))",
"new": "(rd src 0 (min n destLen))",
"claim": "copy stays in the destination"
},
{
"file": "Str/Model",
"def": "cpyMax",
"old": "(wr d (min n (destLen - 1)) [0])",
"new": "(wr d n [0])",
"claim": "terminator in the destination"
},
{
"file": "Str/Model",
"def": "cpyMax",
"old": "(wr d (min n (destLen - 1)) [0]).map (·, true)",
"new": "some (d, true)",
"claim": "terminated"
},
{
"file": "Str/Model",
"def": "cat",
"old": "n + src.length ≥ destLen",
"new": "n + src.length > destLen",
"claim": "room for the terminator"
},
{
"file": "Str/Model",
"def": "cat",
"old": "(wr dest n src)",
"new": "(wr dest 0 src)",
"claim": "append behind"
},
{
"file": "Str/Model",
"def": "trimMax",
"old": "if q = [] then [] else (q.reverse.dropWhile isSpace).reverse",
"new": "q",
"claim": "trailing white space"
},
{
"file": "Str/Model",
"def": "trimMax",
"old": "let q := p.dropWhile isSpace",
"new": "let q := p",
"claim": "leading white space"
},
{
"file": "Str/Model",
"def": "trimMax",
"old": "if q = [] then [] else",
"new": "if q = [] then s else",
"claim": "only white space"
},
{
"file": "Str/Model",
"def": "quoteLoop",
"old": "ceq c quote ∨ ceq c escape",
"new": "ceq c quote",
"claim": "escapes are escaped"
},
{
"file": "Str/Model",
"def": "quoteLoop",
"old": "(out ++ pend ++ [escape])",
"new": "(out ++ pend)",
"claim": "escape added"
},
{
"file": "Str/Model",
"def": "quoteMax",
"old": "if s = [] then []",
"new": "if s.length < 2 then s",
"claim": "one character is quoted"
},
{
"file": "Str/Model",
"def": "unescape",
"old": "(ceq d escape ∨ ceq d quote)",
"new": "ceq d quote",
"claim": "escaped escapes"
},
{
"file": "Str/Model",
"def": "unescape",
"old": "(ceq d escape ∨ ceq d quote)",
"new": "True",
"claim": "other escapes are kept (round trip unaffected?)"
},
{
"file": "Str/Model",
"def": "unquoteMax",
"old": "(p.length - 2)",
"new": "(p.length - 1)",
"claim": "closing quote removed"
},
{
"file": "Str/Model",
"def": "unquoteMax",
"old": "p.head?.any (ceq · quote) && p.getLast?.any (ceq · quote)",
"new": "p.head?.any (ceq · quote)",
"claim": "both quotes needed"
},
{
"file": "Str/Model",
"def": "quoteIf",
"old": "s.getLast? = some 32",
"new": "False",
"claim": "blank at the end"
},
{
"file": "Str/Model",
"def": "quoteIf",
"old": "ceq c q || ceq c d",
"new": "ceq c q",
"claim": "delimiter inside"
},
{
"file": "Str/Model",
"def": "countDelim",
"old": "n + 1 else n",
"new": "n else n",
"claim": "array size"
},
{
"file": "Str/Model",
"def": "explodeLoop",
"old": "if out.length + 1 ≥ slots then none",
"new": "if False then none",
"claim": "bounds are checked by the proof (equivalent)"
},
{
"file": "Str/Model",
"def": "explodeLoop",
"old": "(out ++ [cur]) []",
"new": "(out ++ [cur]) [c]",
"claim": "delimiter dropped"
},
{
"file": "Str/Model",
"def": "explodeLoop",
"old": "some (out ++ [cur])",
"new": "some out",
"claim": "last part"
},
{
"file": "Str/Model",
"def": "explode",
"old": "(countDelim delim s 1)",
"new": "(countDelim delim s 0)",
"claim": "array size"
},
{
"file": "Str/Model",
"def": "qstep",
"old": "q = e ∧ ceq next q then .skip2",
"new": "False then .skip2",
"claim": "doubled quote"
},
{
"file": "Str/Model",
"def": "qstep",
"old": "prev.any (ceq · e) then .skip",
"new": "False then .skip",
"claim": "escaped quote"
},
{
"file": "Str/Model",
"def": "qstep",
"old": ".go (!on)\n  else",
"new": ".go true\n  else",
"claim": "closing quote"
},
{
"file": "Str/Model",
"def": "countQ",
"old": "num + 1 = max - 1 then num + 1",
"new": "num + 1 = max then num + 1",
"claim": "limit"
},
{
"file": "Str/Model",
"def": "countQ",
"old": "(some d) on num",
"new": "(some d) on (num + 1)",
"claim": "count"
},
{
"file": "Str/Model",
"def": "fillQ",
"old": "max ≠ 0 ∧ o.length = max - 1",
"new": "max ≠ 0 ∧ o.length = max",
"claim": "limit in the second pass"
},
{
"file": "Str/Model",
"def": "fillQ",
"old": "(cur ++ [c, d])",
"new": "(cur ++ [c])",
"claim": "doubled quote kept until unquoting"
},
{
"file": "Str/Model",
"def": "fillQ",
"old": "push slots o (d :: r)",
"new": "push slots o r",
"claim": "rest in the last part"
},
{
"file": "Str/Model",
"def": "restricted",
"old": "ceq c d || ceq c q || ceq c e",
"new": "ceq c d || ceq c q",
"claim": "escape in a part (quote = escape covered)"
},
{
"file": "Str/Model",
"def": "restricted",
"old": "ceq c d || ceq c q || ceq c e",
"new": "ceq c q || ceq c e",
"claim": "delimiter in a part"
},
{
"file": "Str/Model",
"def": "escape",
"old": "ceq c q ∨ ceq c e",
"new": "ceq c q",
"claim": "escape escaped"
},
{
"file": "Str/Model",
"def": "encloseOne",
"old": "if always = true ∨ mustEnclose",
"new": "if always = true ∧ mustEnclose",
"claim": "enclosing when needed"
},
{
"file": "Str/Model",
"def": "implodeLoop",
"old": "if first then out else out ++ [d]",
"new": "out ++ [d]",
"claim": "delimiters between only"
},
{
"file": "Str/Model",
"def": "replaceLoop",
"old": "(p + k - lp)",
"new": "k",
"claim": "text between matches (equal when p = lp)"
},
{
"file": "Str/Model",
"def": "replaceLoop",
"old": "if p + k + b.length ≥ s.length then",
"new": "if p + k + b.length > s.length then",
"claim": "stop at the end"
},
{
"file": "Str/Model",
"def": "replaceLoop",
"old": "fuel (p + k + b.length) (p + k + b.length)",
"new": "fuel (p + k + 1) (p + k + b.length)",
"claim": "overlapping matches"
},
{
"file": "Str/Model",
"def": "replaceStr",
"old": "if r.2 ≤ s.length then r.1 ++ s.drop r.2 else r.1",
"new": "r.1",
"claim": "rest kept"
},
{
"file": "Str/Model",
"def": "replaceCharset",
"old": "out.take (out.length - 1) ++ a",
"new": "out ++ a",
"claim": "character removed"
},
{
"file": "Str/Model",
"def": "isEscaped",
"old": "% 2 = 1",
"new": "> 0",
"claim": "even number of escapes"
},
{
"file": "Str/Model",
"def": "quotedLoop",
"old": "if on = keep then",
"new": "if on ≠ keep then",
"claim": "keep and remove"
},
{
"file": "Str/Model",
"def": "quotedLoop",
"old": "c = q ∨ (c = e ∧ isEscaped e rev = true)",
"new": "c = q",
"claim": "escaped escape"
},
{
"file": "Str/Model",
"def": "quotedLoop",
"old": "(dst.dropLast ++ [c])",
"new": "(dst ++ [c])",
"claim": "escape removed"
},
{
"file": "Str/Model",
"def": "quoted",
"old": "if r.1 then none else some r.2",
"new": "some r.2",
"claim": "open quote"
},
{
"file": "Str/Model",
"def": "bracketLoop",
"old": "if x = c ∧ on = false ∧ n = 0 then none\n      else\n",
"new": "if False then none\n      else\n",
"claim": "stray closing bracket (keep)"
},
{
"file": "Str/Model",
"def": "bracketLoop",
"old": "let n := if x = c ∧ on = false then n - 1 else n",
"new": "let n := n",
"claim": "closing bracket"
},
{
"file": "Str/Model",
"def": "bracketLoop",
"old": "let dst := if n = 0 then",
"new": "let dst := if n ≤ 1 then",
"claim": "outside only"
},
{
"file": "Str/Model",
"def": "bracketed",
"old": "r.2.1 > 0 ∨ r.1 = true",
"new": "r.1 = true",
"claim": "open bracket"
},
{
"file": "Str/Model",
"def": "backToSpace",
"old": "if isSpace (s.getD (k + 1) 0) then k + 1",
"new": "if isSpace (s.getD k 0) then k + 1",
"claim": "break at white space"
},
{
"file": "Str/Model",
"def": "chunk",
"old": "if s.length ≤ maxChars",
"new": "if s.length ≤ maxChars + 1",
"claim": "line length"
},
{
"file": "Str/Model",
"def": "chunk",
"old": "= 0 then maxChars else",
"new": "= 0 then s.length else",
"claim": "long words are cut"
},
{
"file": "Str/Model",
"def": "linesLoop",
"old": "(t.drop (chunk maxChars t))",
"new": "(t.drop (chunk maxChars t + 1))",
"claim": "nothing lost"
},
{
"file": "Str/Model",
"def": "linesLoop",
"old": "(room - (line.length + 1))",
"new": "(room - line.length)",
"claim": "room for the terminators (weaker check: equivalent?)"
},
{
"file": "Str/Model",
"def": "explodeLines",
"old": "truncate = false ∧",
"new": "truncate = true ∧",
"claim": "truncation only if asked"
}
]