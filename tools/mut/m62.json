[
{
"file": "TableMerge/Model",
"def": "setCells",
"old": "⟨true, false⟩",
"new": "⟨false, false⟩",
"claim": "a merged table has the columns and rows of both"
},
{
"file": "TableMerge/Model",
"def": "setCells",
"old": "⟨true, false⟩",
"new": "⟨true, true⟩",
"claim": "a merged table has the columns and rows of both"
},
{
"file": "TableMerge/Model",
"def": "setCells",
"old": "| [], t => some t\n  | (n, v)",
"new": "| [], t => some t\n  | [(_, none)], t => some t\n  | (n, v)",
"claim": "equivalent only when the column is there already: a column is added for an empty cell"
},
{
"file": "TableMerge/Model",
"def": "setCells",
"old": "fun x => setCells row ps x.1",
"new": "fun x => if x.2 then some x.1 else setCells row ps x.1",
"claim": "a merged table has the columns and rows of both"
},
{
"file": "TableMerge/Model",
"def": "setCells",
"old": "(n.getD []) v",
"new": "(n.getD []) (v.bind fun v => if v.isEmpty then none else some v)",
"claim": "a merged table has the columns and rows of both"
},
{
"file": "TableMerge/Model",
"def": "pairs",
"old": "cellAt src i j",
"new": "cellAt src j i",
"claim": "a merged table has the columns and rows of both"
},
{
"file": "TableMerge/Model",
"def": "pairs",
"old": "(colName src j, cellAt src i j)",
"new": "(colName src j, cellAt src i 0)",
"claim": "a merged table has the columns and rows of both"
},
{
"file": "TableMerge/Model",
"def": "pairs",
"old": "List.range src.cols.length",
"new": "List.range (src.cols.length - 1)",
"claim": "a merged table has the columns and rows of both"
},
{
"file": "TableMerge/Model",
"def": "pairs",
"old": "List.range src.cols.length",
"new": "List.range src.rows.length",
"claim": "a merged table has the columns and rows of both"
},
{
"file": "TableMerge/Model",
"def": "mergeRows",
"old": "setCells t.rows.length (pairs src i) x.1",
"new": "setCells i (pairs src i) x.1",
"claim": "a merged table has the columns and rows of both"
},
{
"file": "TableMerge/Model",
"def": "mergeRows",
"old": "insRow t t.rows.length",
"new": "insRow t 0",
"claim": "a merged table has the columns and rows of both"
},
{
"file": "TableMerge/Model",
"def": "mergeRows",
"old": "setCells t.rows.length (pairs src i) x.1",
"new": "setCells (t.rows.length - 1) (pairs src i) x.1",
"claim": "a merged table has the columns and rows of both"
},
{
"file": "TableMerge/Model",
"def": "mergeRows",
"old": "setCells t.rows.length (pairs src i) x.1",
"new": "some x.1",
"claim": "a merged table has the columns and rows of both"
},
{
"file": "TableMerge/Model",
"def": "mergeRows",
"old": "(pairs src i)",
"new": "(pairs src 0)",
"claim": "a merged table has the columns and rows of both"
},
{
"file": "TableMerge/Model",
"def": "unnamed",
"old": "List.range t.cols.length",
"new": "List.range (t.cols.length - 1)",
"claim": "a table with an unnamed column is refused and nothing changes"
},
{
"file": "TableMerge/Model",
"def": "unnamed",
"old": ".any fun j",
"new": ".all fun j",
"claim": "a table with an unnamed column is refused and nothing changes"
},
{
"file": "TableMerge/Model",
"def": "unnamed",
"old": ".isEmpty",
"new": ".isEmpty.not",
"claim": "a table with an unnamed column is refused and nothing changes"
},
{
"file": "TableMerge/Model",
"def": "merge",
"old": "if unnamed dest then some (dest, false)\n  else ",
"new": "",
"claim": "a table with an unnamed column is refused and nothing changes"
},
{
"file": "TableMerge/Model",
"def": "merge",
"old": "else if unnamed src then some (dest, false)\n  ",
"new": "",
"claim": "a table with an unnamed column is refused and nothing changes"
},
{
"file": "TableMerge/Model",
"def": "merge",
"old": "if unnamed src then some (dest, false)",
"new": "if unnamed src then some (dest, true)",
"claim": "a table with an unnamed column is refused and nothing changes"
},
{
"file": "TableMerge/Model",
"def": "merge",
"old": "List.range src.rows.length",
"new": "List.range (src.rows.length - 1)",
"claim": "a merged table has the columns and rows of both"
},
{
"file": "TableMerge/Model",
"def": "merge",
"old": "List.range src.rows.length",
"new": "(List.range src.rows.length).reverse",
"claim": "a merged table has the columns and rows of both"
},
{
"file": "TableMerge/Model",
"def": "merge",
"old": "List.range src.rows.length",
"new": "List.range dest.rows.length",
"claim": "a merged table has the columns and rows of both"
},
{
"file": "TableMerge/Model",
"def": "merge",
"old": "if unnamed dest then some (dest, false)",
"new": "if unnamed dest then some (src, false)",
"claim": "a table with an unnamed column is refused and nothing changes"
},
{
"file": "TableJson/Model",
"def": "loadObj",
"old": "set t row k (some v)",
"new": "set t row v (some k)",
"claim": "objects become rows with their values under their names"
},
{
"file": "TableJson/Model",
"def": "loadObj",
"old": "⟨true, false⟩",
"new": "⟨false, false⟩",
"claim": "objects become rows with their values under their names"
},
{
"file": "TableJson/Model",
"def": "loadObj",
"old": "⟨true, false⟩",
"new": "⟨false, true⟩",
"claim": "objects become rows with their values under their names"
},
{
"file": "TableJson/Model",
"def": "loadObj",
"old": "if x.2 then loadObj row ms x.1 else some x",
"new": "loadObj row ms x.1",
"claim": "only arrays of objects of strings are accepted"
},
{
"file": "TableJson/Model",
"def": "loadObj",
"old": "  | _ :: _, t => some (t, false)",
"new": "  | _ :: ms, t => loadObj row ms t",
"claim": "only arrays of objects of strings are accepted"
},
{
"file": "TableJson/Model",
"def": "loadObj",
"old": "  | _ :: _, t => some (t, false)",
"new": "  | (_, .null) :: ms, t => loadObj row ms t\n  | _ :: _, t => some (t, false)",
"claim": "only arrays of objects of strings are accepted"
},
{
"file": "TableJson/Model",
"def": "loadObj",
"old": "  | _ :: _, t => some (t, false)",
"new": "  | _ :: _, t => some (t, true)",
"claim": "only arrays of objects of strings are accepted"
},
{
"file": "TableJson/Model",
"def": "loadArr",
"old": "loadObj t.rows.length ms x.1",
"new": "loadObj 0 ms x.1",
"claim": "objects become rows with their values under their names"
},
{
"file": "TableJson/Model",
"def": "loadArr",
"old": "loadObj t.rows.length ms x.1",
"new": "loadObj (t.rows.length + 1) ms x.1",
"claim": "objects become rows with their values under their names"
},
{
"file": "TableJson/Model",
"def": "loadArr",
"old": "insRow t t.rows.length",
"new": "insRow t 0",
"claim": "objects become rows with their values under their names"
},
{
"file": "TableJson/Model",
"def": "loadArr",
"old": "if y.2 then loadArr l y.1 else some y",
"new": "loadArr l y.1",
"claim": "only arrays of objects of strings are accepted"
},
{
"file": "TableJson/Model",
"def": "loadArr",
"old": "if y.2 then loadArr l y.1 else some y",
"new": "some y",
"claim": "objects become rows with their values under their names"
},
{
"file": "TableJson/Model",
"def": "loadArr",
"old": "  | _ :: _, t => some (t, false)",
"new": "  | _ :: l, t => loadArr l t",
"claim": "only arrays of objects of strings are accepted"
},
{
"file": "TableJson/Model",
"def": "loadNode",
"old": "create false rs",
"new": "create true rs",
"claim": "objects become rows with their values under their names"
},
{
"file": "TableJson/Model",
"def": "loadNode",
"old": "if x.2 then merge t x.1 else some (t, false)",
"new": "merge t x.1",
"claim": "only arrays of objects of strings are accepted"
},
{
"file": "TableJson/Model",
"def": "loadNode",
"old": "if x.2 then merge t x.1 else some (t, false)",
"new": "if x.2 then merge t x.1 else (merge t x.1).map fun y => (y.1, false)",
"claim": "a refused document leaves the table as it was"
},
{
"file": "TableJson/Model",
"def": "loadNode",
"old": "merge t x.1",
"new": "merge x.1 t",
"claim": "objects become rows with their values under their names"
},
{
"file": "TableJson/Model",
"def": "loadNode",
"old": "  | _ => some (t, false)",
"new": "  | .obj ms => loadNode t rs (.arr [.obj ms])\n  | _ => some (t, false)",
"claim": "only arrays of objects of strings are accepted"
},
{
"file": "TableJson/Model",
"def": "loadJson",
"old": "| some (.error _) => some (t, false)",
"new": "| some (.error _) => some (t, true)",
"claim": "only arrays of objects of strings are accepted"
},
{
"file": "TableJson/Model",
"def": "loadJson",
"old": "| some (.error _) => some (t, false)",
"new": "| some (.error _) => some (create t.ci t.rs, false)",
"claim": "a refused document leaves the table as it was"
},
{
"file": "TableJson/Model",
"def": "createJson",
"old": "if unnamed t then none\n  else ",
"new": "",
"claim": "a table with an unnamed column is not written"
},
{
"file": "TableJson/Model",
"def": "createJson",
"old": "List.range t.rows.length",
"new": "List.range (t.rows.length - 1)",
"claim": "a table comes back from JSON"
},
{
"file": "TableJson/Model",
"def": "createJson",
"old": "List.range t.rows.length",
"new": "List.range t.cols.length",
"claim": "a table comes back from JSON"
},
{
"file": "TableJson/Model",
"def": "createJson",
"old": "(pairs t i).filterMap fun p => p.2.map fun v => (p.1.getD [], .str v)",
"new": "(pairs t i).filterMap fun p => p.2.bind fun v => if v.isEmpty then none else some (p.1.getD [], .str v)",
"claim": "a table comes back from JSON"
},
{
"file": "TableJson/Model",
"def": "createJson",
"old": "(pairs t i).filterMap fun p => p.2.map fun v => (p.1.getD [], .str v)",
"new": "(pairs t i).map fun p => (p.1.getD [], .str (p.2.getD []))",
"claim": "a table comes back from JSON"
},
{
"file": "TableJson/Model",
"def": "createJson",
"old": "(p.1.getD [], .str v)",
"new": "(v, .str (p.1.getD []))",
"claim": "a table comes back from JSON"
},
{
"file": "TableJson/Model",
"def": "createJson",
"old": "pairs t i",
"new": "pairs t 0",
"claim": "a table comes back from JSON"
},
{
"file": "TableJson/Model",
"def": "writeJson",
"old": "| none => some none",
"new": "| none => some (some [91, 93])",
"claim": "a table with an unnamed column is not written"
}
]