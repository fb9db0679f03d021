[
{
"file": "SqlQuery/Model",
"def": "noSpaceNeeded",
"old": "c == 44 ||",
"new": "",
"claim": "C102: no space next to a comma"
},
{
"file": "SqlQuery/Model",
"def": "noSpaceNeeded",
"old": "c == 33",
"new": "c == 33 || c == 42",
"claim": "C102: one space between words, * is part of words"
},
{
"file": "SqlQuery/Model",
"def": "squeeze",
"old": "noSpaceNeeded (r.headD 0) || prev.any noSpaceNeeded",
"new": "noSpaceNeeded (r.headD 0)",
"claim": "C102: canonical text (space after a bracket kept)"
},
{
"file": "SqlQuery/Model",
"def": "squeeze",
"old": "if isSpace c then 32 ::",
"new": "if isSpace c then c ::",
"claim": "C102: a line break becomes a space"
},
{
"file": "SqlQuery/Model",
"def": "squeeze",
"old": "noSpaceNeeded (r.headD 0) || prev.any noSpaceNeeded",
"new": "noSpaceNeeded (r.headD 0) || prev.any fun x => !noSpaceNeeded x",
"claim": "C102: words are not joined"
},
{
"file": "SqlQuery/Model",
"def": "squeeze",
"old": "32 :: squeeze (some 32) r",
"new": "32 :: squeeze prev r",
"claim": "C102: several spaces"
},
{
"file": "SqlQuery/Model",
"def": "minimize",
"old": "if Str.trim q = [] then none",
"new": "if q = [] then none",
"claim": "C102: blank queries are refused"
},
{
"file": "SqlQuery/Model",
"def": "minimize",
"old": "some (squeeze none (Str.trim q))",
"new": "some (squeeze none q)",
"claim": "C102: leading blanks"
},
{
"file": "SqlQuery/Model",
"def": "closeParen",
"old": "if c = 40 then n + 2",
"new": "if c = 40 then n + 1",
"claim": "C103: nested parentheses"
},
{
"file": "SqlQuery/Model",
"def": "closeParen",
"old": "| _ + 1, [] => none",
"new": "| _ + 1, [] => some ([], [])",
"claim": "C103: an open group is refused"
},
{
"file": "SqlQuery/Model",
"def": "copies",
"old": "if i ≠ 0 then [44] else []",
"new": "if i > 1 then [44] else []",
"claim": "C103: commas between groups"
},
{
"file": "SqlQuery/Model",
"def": "copies",
"old": "if i ≠ 0 then [44] else []",
"new": "[44]",
"claim": "C103: no comma before the first group"
},
{
"file": "SqlQuery/Model",
"def": "expand",
"old": "q.drop (k + 7)",
"new": "q.drop (k + 6)",
"claim": "C103: the group starts behind its parenthesis"
},
{
"file": "SqlQuery/Model",
"def": "expand",
"old": "++ r.2",
"new": "",
"claim": "C103: the rest of the text stays"
},
{
"file": "SqlQuery/Model",
"def": "expand",
"old": "copies (40 :: r.1) 0 rows",
"new": "copies (40 :: r.1) 0 (rows - 1)",
"claim": "C103: one group per row"
},
{
"file": "SqlQuery/Model",
"def": "digits",
"old": "digits (n / 10) ++ [UInt8.ofNat (48 + n % 10)]",
"new": "[UInt8.ofNat (48 + n % 10)] ++ digits (n / 10)",
"claim": "C103: numbers are decimal"
},
{
"file": "SqlQuery/Model",
"def": "number",
"old": "number sigil (id + 1) r",
"new": "number sigil id r",
"claim": "C103: placeholders count up"
},
{
"file": "SqlQuery/Model",
"def": "number",
"old": "c :: number sigil id r",
"new": "c :: number sigil (id + 1) r",
"claim": "C103: only placeholders count"
},
{
"file": "SqlQuery/Model",
"def": "fmtValues",
"old": "rows > 1",
"new": "rows > 2",
"claim": "C103: two rows"
},
{
"file": "SqlQuery/Model",
"def": "fmtValues",
"old": "f.multiValue ∧ rows > 1",
"new": "rows > 1",
"claim": "C103: databases that bind arrays"
},
{
"file": "SqlQuery/Model",
"def": "fmtParams",
"old": "if f.dollar then 36 else 58",
"new": "if f.dollar then 58 else 36",
"claim": "C103: the sigil"
},
{
"file": "SqlQuery/Model",
"def": "fmtParams",
"old": "number (if f.dollar then 36 else 58) 1 q",
"new": "number (if f.dollar then 36 else 58) 0 q",
"claim": "C103: numbers start at one"
},
{
"file": "SqlQuery/Model",
"def": "fmtConflict",
"old": "f.onConflict ∧ Str.eqMaxInt true q insertWord 6",
"new": "f.onConflict",
"claim": "C103: only inserts get the clause"
},
{
"file": "SqlQuery/Model",
"def": "fmtConflict",
"old": "Str.eqMaxInt true q insertWord 6",
"new": "Str.eqMaxInt true q insertWord 5",
"claim": "C103: only inserts get the clause"
},
{
"file": "SqlQuery/Model",
"def": "checkLoop",
"old": "!isCreate && !skip",
"new": "!skip",
"claim": "C105: create table may hold quotes"
},
{
"file": "SqlQuery/Model",
"def": "checkLoop",
"old": "r ≠ [] ∧ skip = false",
"new": "skip = false",
"claim": "C105: a terminator at the end"
},
{
"file": "SqlQuery/Model",
"def": "checkLoop",
"old": "if c = 63 then checkLoop isCreate skip (cnt + 1) r",
"new": "if c = 63 then checkLoop isCreate skip cnt r",
"claim": "C105: placeholders are counted"
},
{
"file": "SqlQuery/Model",
"def": "checkLoop",
"old": "else if !Dict.isPrint c && !skip then .error .prepareInvalid",
"new": "",
"claim": "C105: unprintable characters"
},
{
"file": "SqlQuery/Model",
"def": "checkLoop",
"old": "if r ≠ [] ∧ skip = false then .error .noMultiQuery",
"new": "if r ≠ [] ∧ skip = false then .error .prepareInvalid",
"claim": "C105: the error"
},
{
"file": "SqlQuery/Model",
"def": "prepareQuery",
"old": "createTable 12",
"new": "createTable 6",
"claim": "C105: only create table may hold quotes"
},
{
"file": "SqlQuery/Model",
"def": "prepare",
"old": "(prepareQuery (Str.trim q) skip)",
"new": "(prepareQuery q skip)",
"claim": "C105: the trimmed text is checked"
},
{
"file": "SqlQuery/Model",
"def": "mysqlRows",
"old": "min rows (65535 / params)",
"new": "rows",
"claim": "C104: limit on values"
},
{
"file": "SqlQuery/Model",
"def": "mysqlRows",
"old": "else if 65535 / params = 0 then 1",
"new": "",
"claim": "C104: execution ends"
},
{
"file": "SqlQuery/Model",
"def": "sqliteRows",
"old": "min maxCompound.toNat (maxParams.toNat / params)",
"new": "maxParams.toNat / params",
"claim": "C104: limit on rows"
},
{
"file": "SqlQuery/Model",
"def": "sqliteRows",
"old": "min rows (min maxCompound.toNat (maxParams.toNat / params))",
"new": "min maxCompound.toNat (maxParams.toNat / params)",
"claim": "C104: no more rows than bound"
},
{
"file": "SqlQuery/Model",
"def": "odbcRows",
"old": "if maxRows ≠ 0 ∧ rows > maxRows then maxRows else rows\n  else if",
"new": "if rows > maxRows then maxRows else rows\n  else if",
"claim": "C104: no limit on rows"
},
{
"file": "SqlQuery/Model",
"def": "odbcRows",
"old": "min rows (maxParams / params)",
"new": "maxParams / params",
"claim": "C104: no more rows than bound"
},
{
"file": "SqlQuery/Model",
"def": "pgsqlRows",
"old": "min rows 100",
"new": "max rows 100",
"claim": "C104: no more rows than bound"
},
{
"file": "SqlQuery/Model",
"def": "flagsOf",
"old": "{ colon := true }",
"new": "{ colon := true, multiValue := true }",
"claim": "C103: Oracle binds arrays"
},
{
"file": "SqlQuery/Model",
"def": "bindRows",
"old": "rows.length - offset",
"new": "rows.length",
"claim": "C104: every row once"
},
{
"file": "SqlQuery/Model",
"def": "bindGet",
"old": "rows[row + offset]?",
"new": "rows[row]?",
"claim": "C104: the second batch starts behind the first"
},
{
"file": "SqlQuery/Model",
"def": "bindAll",
"old": "(List.range n).map fun row =>",
"new": "(List.range n).reverse.map fun row =>",
"claim": "C104: order of the rows"
},
{
"file": "SqlQuery/Model",
"def": "executeLoop",
"old": "bindRows rows (offset + n) ≠ 0 then executeLoop d q params rows answer fuel (offset + n)",
"new": "bindRows rows (offset + n) ≠ 0 then executeLoop d q params rows answer fuel (offset + 1)",
"claim": "C104: every row once"
},
{
"file": "SqlQuery/Model",
"def": "executeLoop",
"old": "bindRows rows (offset + n) ≠ 0",
"new": "bindRows rows (offset + n) > 1",
"claim": "C104: the last row"
},
{
"file": "SqlQuery/Model",
"def": "executeLoop",
"old": "(processRows d params (bindRows rows offset)) with",
"new": "(processRows d params rows.length) with",
"claim": "C103: the text fits the batch"
},
{
"file": "SqlQuery/Model",
"def": "executeLoop",
"old": "| some e => (log ++ [req], .error e)",
"new": "| some e => (log ++ [req], .done)",
"claim": "C104: errors are reported"
},
{
"file": "SqlQuery/Model",
"def": "dropBlank",
"old": "if rows.getLast? = some [] then rows.dropLast else rows",
"new": "rows",
"claim": "C104: a blank row at the end does not count"
},
{
"file": "SqlQuery/Model",
"def": "dropBlank",
"old": "if rows.getLast? = some [] then rows.dropLast else rows",
"new": "rows.dropLast",
"claim": "C104: the last row"
},
{
"file": "SqlQuery/Model",
"def": "typesLoop",
"old": "type ≠ 0 ∧ mytype ≠ type",
"new": "type = 0 ∧ mytype ≠ type",
"claim": "C104: types of a column"
},
{
"file": "SqlQuery/Model",
"def": "checkRows",
"old": "else if rs.any (·.length ≠ r.length) then .error .wrongNumParams",
"new": "",
"claim": "C104: rows that do not fit are refused"
},
{
"file": "SqlQuery/Model",
"def": "checkRows",
"old": "if params ≠ r.length then",
"new": "if params > r.length then",
"claim": "C104: rows that do not fit are refused"
},
{
"file": "SqlQuery/Model",
"def": "checkRows",
"old": "if params ≠ 0 then .error .wrongNumParams else .ok ()",
"new": "Except.ok ()",
"claim": "C104: rows that do not fit are refused"
},
{
"file": "SqlQuery/Model",
"def": "pgsqlOutcome",
"old": "affected ≠ pgsqlRows bound",
"new": "affected > pgsqlRows bound",
"claim": "C104: a conflict is reported"
},
{
"file": "SqlQuery/Model",
"def": "pgsqlOutcome",
"old": "Str.eqMaxInt true text insertWord 6 ∧",
"new": "",
"claim": "C104: updates of several rows"
}
]