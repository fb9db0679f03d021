[
{
"file": "Table/Model",
"def": "insCol",
"old": "if i > t.cols.length then",
"new": "if i ≥ t.cols.length then",
"claim": "C112: a column can be appended"
},
{
"file": "Table/Model",
"def": "insCol",
"old": "name ≠ [] ∧ (aget (nmeq t.ci) t.nameId name).isSome",
"new": "(aget (nmeq t.ci) t.nameId name).isSome ∧ name = []",
"claim": "C112: no two columns have the same name"
},
{
"file": "Table/Model",
"def": "insCol",
"old": "t.cols.take i ++ id :: t.cols.drop i",
"new": "t.cols ++ [id]",
"claim": "C112: a column is inserted where asked"
},
{
"file": "Table/Model",
"def": "insCol",
"old": "aput (nmeq t.ci) t.nameId name id",
"new": "t.nameId",
"claim": "C112: a new column is found by its name"
},
{
"file": "Table/Model",
"def": "dropName",
"old": "nameId := match aget ideq t.idName id with\n      | some n => adel (nmeq t.ci) t.nameId n\n      | none => t.nameId",
"new": "nameId := t.nameId",
"claim": "C112: the name of a removed column is free"
},
{
"file": "Table/Model",
"def": "dropName",
"old": "    idName := adel ideq t.idName id",
"new": "    idName := t.idName",
"claim": "C112: names of removed columns are forgotten"
},
{
"file": "Table/Model",
"def": "rmColInt",
"old": "(p.1, adel ideq p.2 id)",
"new": "p",
"claim": "C112: rows with no other cells become empty"
},
{
"file": "Table/Model",
"def": "rmColInt",
"old": "t.cols.filter (· != id)",
"new": "t.cols.filter (· == id)",
"claim": "C112: only the column is removed"
},
{
"file": "Table/Model",
"def": "rmCol",
"old": "if name = [] then t\n  else match",
"new": "if name ≠ [] then t\n  else match",
"claim": "C112: a column is removed by name"
},
{
"file": "Table/Model",
"def": "rmEmptyColsLoop",
"old": "(cnt + 1)",
"new": "cnt",
"claim": "C112: number of removed columns"
},
{
"file": "Table/Model",
"def": "rmEmptyColsLoop",
"old": "t.data.any fun p",
"new": "t.data.all fun p",
"claim": "C112: only empty columns are removed"
},
{
"file": "Table/Model",
"def": "rmEmptyCols",
"old": "rmEmptyColsLoop t.cols.length t 0",
"new": "rmEmptyColsLoop (t.cols.length - 1) t 0",
"claim": "C112: all empty columns are removed"
},
{
"file": "Table/Model",
"def": "insRow",
"old": "t.rows.take i ++ id :: t.rows.drop i",
"new": "id :: t.rows",
"claim": "C112: a row is inserted where asked"
},
{
"file": "Table/Model",
"def": "insRow",
"old": "if i > t.rows.length",
"new": "if i ≥ t.rows.length",
"claim": "C112: a row can be appended"
},
{
"file": "Table/Model",
"def": "dictLoop",
"old": "if fl.ignore then dictLoop fl kvs t row\n",
"new": "if fl.ignore then some (t, some row)\n",
"claim": "C112: other values of the dictionary are used"
},
{
"file": "Table/Model",
"def": "dictLoop",
"old": "    | some id => dictLoop fl kvs t (aput ideq row id v)",
"new": "    | some id => dictLoop fl kvs t row",
"claim": "C112: values of the dictionary are put into the row"
},
{
"file": "Table/Model",
"def": "dictLoop",
"old": "      else some (t, none)",
"new": "      else some (t, some row)",
"claim": "C112: fails on unknown columns without flags"
},
{
"file": "Table/Model",
"def": "insDict",
"old": "({ t with data := aput ideq t.data id row }, true)",
"new": "(t, true)",
"claim": "C112: the row has the values"
},
{
"file": "Table/Model",
"def": "rmRow",
"old": "data := adel ideq t.data id",
"new": "data := t.data",
"claim": "C112: cells of removed rows are gone (columns are empty)"
},
{
"file": "Table/Model",
"def": "rmRow",
"old": "t.rows.take i ++ t.rows.drop (i + 1)",
"new": "t.rows.take i ++ t.rows.drop (i + 2)",
"claim": "C112: one row is removed"
},
{
"file": "Table/Model",
"def": "rmEmptyRowsLoop",
"old": "(aget ideq t.data id).all (fun d => d.isEmpty)",
"new": "(aget ideq t.data id).isNone",
"claim": "C112: rows whose values were cleared are empty"
},
{
"file": "Table/Model",
"def": "rmEmptyRowsLoop",
"old": "(cnt + 1)",
"new": "(cnt + 2)",
"claim": "C112: number of removed rows"
},
{
"file": "Table/Model",
"def": "setRow",
"old": "  | none => adel ideq d c",
"new": "  | none => d",
"claim": "C112: a cell is cleared"
},
{
"file": "Table/Model",
"def": "setInt",
"old": "(aget ideq t.data r).getD []",
"new": "[]",
"claim": "C112: other cells of the row stay"
},
{
"file": "Table/Model",
"def": "set",
"old": "if fl.ignore then some (t, true)",
"new": "if fl.ignore then some (t, false)",
"claim": "C112: unknown columns are ignored"
},
{
"file": "Table/Model",
"def": "set",
"old": "insCol t t.cols.length name",
"new": "insCol t 0 name",
"claim": "C112: columns are added at the end"
},
{
"file": "Table/Model",
"def": "setAt",
"old": "(setInt t r c v, true)",
"new": "(setInt t c r v, true)",
"claim": "C112: the cell is set"
},
{
"file": "Table/Model",
"def": "setDictLoop",
"old": "(some v) fl",
"new": "none fl",
"claim": "C112: the values are set"
},
{
"file": "Table/Model",
"def": "setDict",
"old": "if !(fl.ignore || fl.add) && kvs.any",
"new": "if !(fl.ignore || fl.add) && kvs.all",
"claim": "C112: fails if one column is missing"
},
{
"file": "Table/Model",
"def": "cell",
"old": "if name = [] then none else (aget (nmeq t.ci) t.nameId name).bind (getInt t r)",
"new": "(aget (nmeq t.ci) t.nameId name).bind fun c => getInt t c r",
"claim": "C112: cells by name"
},
{
"file": "Table/Model",
"def": "second",
"old": "if r = 0 then p2 a b else r",
"new": "if r = 0 then r else p2 a b",
"claim": "C112: second sort key"
},
{
"file": "Table/Model",
"def": "rowCmp",
"old": "((getInt t b c1).getD [])) ((getInt t a c2)",
"new": "((getInt t b c1).getD [])) ((getInt t a c1)",
"claim": "C112: second sort key"
},
{
"file": "Table/Model",
"def": "sort",
"old": "| some c2 => sortInt t c1 c2 p1 p2",
"new": "| some c2 => sortInt t c2 c1 p1 p2",
"claim": "C112: sort keys in order"
},
{
"file": "Table/Model",
"def": "order",
"old": "{ t with cols := a.toList }",
"new": "{ t with cols := a.toList.reverse }",
"claim": "C112: columns in order"
},
{
"file": "Table/Model",
"def": "nmeq",
"old": "a.map Chr.toLower == b.map Chr.toLower",
"new": "a.map Chr.toLower == b",
"claim": "C112: names without regard to case"
},
{
"file": "Table/Model",
"def": "colIdx",
"old": "t.cols.findIdx? (· == id)",
"new": "t.cols.findIdx? (· != id)",
"claim": "C112: column by name"
}
]