[
{
"file": "TableMd/Model",
"def": "strip",
"old": "stripEnd (if c = 124 then l else c :: l)",
"new": "stripEnd (c :: l)",
"claim": "A table written as Markdown comes back the same (outer pipe at the start is kept)"
},
{
"file": "TableMd/Model",
"def": "strip",
"old": "stripEnd (if c = 124 then l else c :: l)",
"new": "stripEnd l",
"claim": "A table written as Markdown comes back the same (first byte always dropped)"
},
{
"file": "TableMd/Model",
"def": "addCols",
"old": "insCol t t.cols.length (trim c)",
"new": "insCol t 0 (trim c)",
"claim": "A table written as Markdown comes back the same (columns in reverse order)"
},
{
"file": "TableMd/Model",
"def": "addCols",
"old": "insCol t t.cols.length (trim c)",
"new": "insCol t t.cols.length c",
"claim": "A table written as Markdown comes back the same (names keep their padding)"
},
{
"file": "TableMd/Model",
"def": "sepOk",
"old": "3 ≤ n &&",
"new": "4 ≤ n &&",
"claim": "A table written as Markdown comes back the same (three dashes are refused)"
},
{
"file": "TableMd/Model",
"def": "sepOk",
"old": "k ≤ 1 && c.length == k",
"new": "k = 1 && c.length == k",
"claim": "A table written as Markdown comes back the same (a colon is required)"
},
{
"file": "TableMd/Model",
"def": "putCells",
"old": "putCells row (j + 1) cs",
"new": "putCells row j cs",
"claim": "A table written as Markdown comes back the same (all values in one column)"
},
{
"file": "TableMd/Model",
"def": "putCells",
"old": "setAt t row j (some (trim c))",
"new": "setAt t row j (some c)",
"claim": "A table written as Markdown comes back the same (values keep their padding)"
},
{
"file": "TableMd/Model",
"def": "putCells",
"old": "if trim c = [] then t else",
"new": "if c = [] then t else",
"claim": "A table written as Markdown comes back the same (blank cells become empty values)"
},
{
"file": "TableMd/Model",
"def": "readRows",
"old": "cols.length > t.cols.length",
"new": "cols.length ≥ t.cols.length",
"claim": "A table written as Markdown comes back the same (full rows are refused)"
},
{
"file": "TableMd/Model",
"def": "readRows",
"old": "insRow t t.rows.length",
"new": "insRow t 0",
"claim": "A table written as Markdown comes back the same (rows in reverse order)"
},
{
"file": "TableMd/Model",
"def": "readRows",
"old": "cols.length > t.cols.length",
"new": "cols.length ≠ t.cols.length",
"claim": "A table written as Markdown comes back the same (a row ending in an empty cell is refused)"
},
{
"file": "TableMd/Model",
"def": "loadMd",
"old": "split (rtrim (ltrim data)) [10]",
"new": "split (rtrim (ltrim data)) [13]",
"claim": "A table written as Markdown comes back the same (lines end with a carriage return)"
},
{
"file": "TableMd/Model",
"def": "loadMd",
"old": "some (hd :: sep :: d :: ds)",
"new": "some (hd :: d :: sep :: ds)",
"claim": "A table written as Markdown comes back the same (separator expected third)"
},
{
"file": "TableMd/Model",
"def": "loadMd",
"old": "readRows (d :: ds) t",
"new": "readRows ds t",
"claim": "A table written as Markdown comes back the same (first row is lost)"
},
{
"file": "TableMd/Model",
"def": "padded",
"old": "c ++ List.replicate (w - c.length) 32",
"new": "List.replicate w 32",
"claim": "A table written as Markdown comes back the same (padding in place of the cell)"
},
{
"file": "TableMd/Model",
"def": "padded",
"old": "c ++ List.replicate (w - c.length) 32",
"new": "c ++ List.replicate (w - c.length) 46",
"claim": "A table written as Markdown comes back the same (padded with dots)"
},
{
"file": "TableMd/Model",
"def": "line",
"old": "if fl.outer then b else b.take (b.length - 2)",
"new": "b.take (b.length - 2)",
"claim": "A table written as Markdown comes back the same (outer pipe cut off)"
},
{
"file": "TableMd/Model",
"def": "line",
"old": "let b := b.take (b.length - 1)",
"new": "let b := b.take (b.length - 2)",
"claim": "A table written as Markdown comes back the same (too much cut off a line)"
},
{
"file": "TableMd/Model",
"def": "ending",
"old": "if fl.win then [13, 10] else [10]",
"new": "if fl.win then [13] else [10]",
"claim": "A table written as Markdown comes back the same (Windows line ends)"
},
{
"file": "TableMd/Model",
"def": "width",
"old": "> 3 then ((colName t j).getD []).length else 3",
"new": "> 3 then ((colName t j).getD []).length else 2",
"claim": "A table written as Markdown comes back the same (two dashes for a narrow column)"
},
{
"file": "TableMd/Model",
"def": "dashes",
"old": "if fl.pretty then width t j else 3",
"new": "if fl.pretty then width t j else 2",
"claim": "A table written as Markdown comes back the same (two dashes)"
},
{
"file": "TableMd/Model",
"def": "linesOf",
"old": "padded fl (width t j) ((cellAt t i j).getD [])",
"new": "padded fl (width t j) ((cellAt t j i).getD [])",
"claim": "A table written as Markdown comes back the same (rows and columns swapped)"
},
{
"file": "TableMd/Model",
"def": "writeMd",
"old": "t.cols.length = 0 ∨ t.rows.length = 0",
"new": "t.cols.length = 0",
"claim": "A table without rows is not written"
},
{
"file": "TableMd/Model",
"def": "writeMd",
"old": "if b[b.length - 1]? = some 13 then b.take (b.length - 1) else b",
"new": "b.take (b.length - 1)",
"claim": "A table written as Markdown comes back the same (last byte always cut off)"
},
{
"file": "TableMd/Model",
"def": "rtrim",
"old": "(l.reverse.dropWhile Chr.isSpace).reverse",
"new": "l",
"claim": "A table written as Markdown comes back the same (padding is kept)"
}
]