[
{
"file": "StrFmt/Model",
"def": "addBytes",
"old": "if b.length > len - pos - 1 then len - pos - 1 else b.length",
"new": "if b.length > len - pos then len - pos else b.length",
"claim": "the string is terminated within its size"
},
{
"file": "StrFmt/Model",
"def": "addBytes",
"old": "(pos + tlen) len, b.length)",
"new": "(pos + tlen) len, tlen)",
"claim": "the length of the whole text is returned"
},
{
"file": "StrFmt/Model",
"def": "addJust",
"old": "if padLen > 0 ∧ ljust = true then addFill",
"new": "if padLen > 0 ∧ ljust = false then addFill",
"claim": "a field is padded on one side"
},
{
"file": "StrFmt/Model",
"def": "addSign",
"old": "padLen - min padLen 1",
"new": "padLen",
"claim": "the sign counts for the width"
},
{
"file": "StrFmt/Model",
"def": "addSign",
"old": "| .posspace => 32",
"new": "| .posspace => 43",
"claim": "a space stands for the sign of a positive number"
},
{
"file": "StrFmt/Model",
"def": "prefixOf",
"old": "bytes.head? ≠ some 48",
"new": "bytes.head? = some 48",
"claim": "# makes an octal number begin with one 0"
},
{
"file": "StrFmt/Model",
"def": "addPrefix",
"old": "padLen - min padLen pre.length",
"new": "padLen - min padLen 1",
"claim": "the prefix counts for the width"
},
{
"file": "StrFmt/Model",
"def": "digitLoop",
"old": "if val / base > 0 then",
"new": "if val / base > 1 then",
"claim": "a number is shown with all its digits"
},
{
"file": "StrFmt/Model",
"def": "reverseBytes",
"old": "(bs.length / 2) bs",
"new": "(bs.length / 2 - 1) bs",
"claim": "a number is shown with its digits in order"
},
{
"file": "StrFmt/Model",
"def": "getSigned",
"old": "((v.truncate 16).toInt, ap)",
"new": "((v.truncate 8).toInt, ap)",
"claim": "h is the size of a short"
},
{
"file": "StrFmt/Model",
"def": "getUnsigned",
"old": "| .char, .i v :: ap => some ((v.truncate 8).toNat, ap)",
"new": "| .char, .i v :: ap => some (v.toNat, ap)",
"claim": "hh is the size of a char"
},
{
"file": "StrFmt/Model",
"def": "strLenMax",
"old": "else if max ≤ mem.length then some max",
"new": "else if max < mem.length then some max",
"claim": "a string need not be terminated if it has as many bytes as the precision",
"comment": "more undefined behaviour"
},
{
"file": "StrFmt/Model",
"def": "flagLoop",
"old": "if r = true ∧ c.ljust = false then { c with padChar := 48 }",
"new": "if r = true then { c with padChar := 48 }",
"claim": "- overrides 0"
},
{
"file": "StrFmt/Model",
"def": "flagLoop",
"old": "if r = true ∧ c.sign ≠ .negpos then",
"new": "if r = true then",
"claim": "+ overrides the space"
},
{
"file": "StrFmt/Model",
"def": "ctlLoop",
"old": "if c.haveLen then ctlLoop data start p { c with inputLen := v.toInt.toNat } ap",
"new": "if c.haveLen then ctlLoop data start p { c with padLen := v.toInt.toNat } ap",
"claim": "* behind a point is the precision"
},
{
"file": "StrFmt/Model",
"def": "ctlLoop",
"old": "else if c.dt = .long then ctlLoop data start p { c with dt := .longlong } ap",
"new": "else if c.dt = .long then ctlLoop data start p { c with dt := .int } ap",
"claim": "ll is the size of a long long"
},
{
"file": "StrFmt/Model",
"def": "ctlLoop",
"old": "(if c.haveLen then c.inputLen else 6)",
"new": "(if c.haveLen then c.inputLen else 5)",
"claim": "a double has six digits by default"
},
{
"file": "StrFmt/Model",
"def": "ctlLoop",
"old": "(addJust data (some (m.take n)) 32 c.padLen c.ljust)",
"new": "(addJust data (some (m.take n)) c.padChar c.padLen c.ljust)",
"claim": "strings are padded with spaces"
},
{
"file": "StrFmt/Model",
"def": "ctlLoop",
"old": "(decide (b = 88))",
"new": "(decide (b = 120))",
"claim": "X shows upper case digits"
},
{
"file": "StrFmt/Model",
"def": "parseError",
"old": "(start - p.length)",
"new": "(start - p.length + 1)",
"claim": "snprintf and bprintf agree on malformed formats",
"comment": "what is shown for a malformed directive is not specified; a survivor is expected"
},
{
"file": "StrFmt/Model",
"def": "flush",
"old": "(wr m pos [0])",
"new": "(wr m (len - 1) [0])",
"claim": "the terminator follows the text"
},
{
"file": "StrFmt/Model",
"def": "flush",
"old": "some (.fd env (calls + 1) wb (out ++ wb), true)",
"new": "some (.fd env (calls + 1) wb out, true)",
"claim": "all of the text reaches the file"
},
{
"file": "StrFmt/Model",
"def": "fdLoop",
"old": "(out ++ b.take 512) (b.drop 512)",
"new": "(out ++ b.take 512) (b.drop 511)",
"claim": "a file gets every byte once"
},
{
"file": "StrFmt/Model",
"def": "printLoop",
"old": "printLoop f r.1 r.2.1 r.2.2.1 (outlen + r.2.2.2)",
"new": "printLoop f r.1 r.2.1 ap (outlen + r.2.2.2)",
"claim": "every directive takes its own arguments"
},
{
"file": "StrFmt/Model",
"def": "addDoubleJust",
"old": "if prec > 100 then 100 else prec",
"new": "prec",
"claim": "a double has at most 100 digits behind the point"
},
{
"file": "Sql/Model",
"def": "act",
"old": "if tr.st ≠ .ok then (.queryDeadlock, some tr, t)",
"new": "if tr.st ≠ .ok then (.success, some tr, t)",
"claim": "a deadlock is reported to the function",
"tightened": [
"Sql.act_reported"
]
}
]