[
{
"file": "TableCsv/Model",
"def": "level",
"old": "if c = quote then 2",
"new": "if c = quote then 1",
"claim": "a quote in a value is not doubled"
},
{
"file": "TableCsv/Model",
"def": "level",
"old": "if l = 0 ∧ c ∈ req.takeWhile",
"new": "if l = 1 ∧ c ∈ req.takeWhile",
"claim": "values with delimiters are not quoted"
},
{
"file": "TableCsv/Model",
"def": "escape",
"old": "(if c = quote then [quote] else []) ++ c",
"new": "(if c = quote then [] else []) ++ c",
"claim": "quotes are not doubled"
},
{
"file": "TableCsv/Model",
"def": "quoted",
"old": "[delim, quote, 13, 10]",
"new": "[delim, quote, 13]",
"claim": "a line feed does not lead to quotes"
},
{
"file": "TableCsv/Model",
"def": "quoted",
"old": "[delim, quote, 13, 10]",
"new": "[quote, 13, 10]",
"claim": "a delimiter does not lead to quotes"
},
{
"file": "TableCsv/Model",
"def": "quoted",
"old": "[delim, quote, 13, 10]",
"new": "[delim, quote, 10]",
"claim": "a carriage return does not lead to quotes"
},
{
"file": "TableCsv/Model",
"def": "quoted",
"old": "if l < 2 then s else",
"new": "if l < 3 then s else",
"claim": "never doubled"
},
{
"file": "TableCsv/Model",
"def": "addLine",
"old": "c ++ [delim]).dropLast ++ [13, 10]",
"new": "c ++ [delim]) ++ [13, 10]",
"claim": "the last delimiter stays"
},
{
"file": "TableCsv/Model",
"def": "addLine",
"old": "dropLast ++ [13, 10]",
"new": "dropLast ++ [13]",
"claim": "rows end with a carriage return only"
},
{
"file": "TableCsv/Model",
"def": "writeCsv",
"old": "b.take (b.length - 2)",
"new": "b.take (b.length - 1)",
"claim": "a carriage return stays at the end"
},
{
"file": "TableCsv/Model",
"def": "writeCsv",
"old": "b.take (b.length - 2)",
"new": "b.take (b.length - 3)",
"claim": "the last byte is cut off"
},
{
"file": "TableCsv/Model",
"def": "writeCsv",
"old": "if header then addLine",
"new": "if !header then addLine",
"claim": "header the wrong way round"
},
{
"file": "TableCsv/Model",
"def": "writeCsv",
"old": "(cellAt t i)",
"new": "(cellAt t 0)",
"claim": "the first row over and over"
},
{
"file": "TableCsv/Model",
"def": "loadCols",
"old": "| some _ => loadCols ns t",
"new": "| some _ => some t",
"claim": "stops at the first known column"
},
{
"file": "TableCsv/Model",
"def": "loadCols",
"old": "insCol t t.cols.length",
"new": "insCol t 0",
"claim": "new columns at the left"
},
{
"file": "TableCsv/Model",
"def": "loadCells",
"old": "loadCells row r (some c) (setAt t row c v).1",
"new": "loadCells row r (some c) (setAt t row c none).1",
"claim": "values are dropped"
},
{
"file": "TableCsv/Model",
"def": "loadCells",
"old": "loadCells row r (some c) (setAt t row c v).1",
"new": "loadCells row r (some c) (setAt t (row - 1) c v).1",
"claim": "values go to the row before"
},
{
"file": "TableCsv/Model",
"def": "loadCells",
"old": "(colIdx t (n.getD [])).or col",
"new": "col.or (colIdx t (n.getD []))",
"claim": "all values go to the first column"
},
{
"file": "TableCsv/Model",
"def": "loadRows",
"old": "insRow t t.rows.length",
"new": "insRow t 0",
"claim": "rows at the top"
},
{
"file": "TableCsv/Model",
"def": "loadRows",
"old": "loadRows hd rs w.2 w.1",
"new": "loadRows hd rs w.2 u.1",
"claim": "each row is forgotten"
},
{
"file": "TableCsv/Model",
"def": "plainCells",
"old": "plainCells row (j + 1) r",
"new": "plainCells row j r",
"claim": "all values go to the first column"
},
{
"file": "TableCsv/Model",
"def": "plainRows",
"old": "plainCells t.rows.length 0 r",
"new": "plainCells t.rows.length 1 r",
"claim": "values are shifted by one column"
},
{
"file": "TableCsv/Model",
"def": "loadCsv",
"old": "m.tail none",
"new": "m none",
"claim": "the header is loaded as a row too"
},
{
"file": "TableCsv/Model",
"def": "loadCsv",
"old": "| some none => some (t, false)",
"new": "| some none => some (t, true)",
"claim": "broken text reported as success"
},
{
"file": "TableCsv/Model",
"def": "loadCsv",
"old": "data.head? = some 0 then some (t, true)",
"new": "data.head? = some 0 then some (t, false)",
"claim": "empty text refused"
},
{
"file": "TableCsv/Model",
"def": "loadCsv",
"old": "Csv.parse trim delim quote",
"new": "Csv.parse trim quote delim",
"claim": "delimiter and quote swapped"
}
]