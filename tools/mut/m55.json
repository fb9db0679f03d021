[
{
"file": "JsonPath/Model",
"def": "offsetVal",
"old": "(len : Int) + v < 0",
"new": "(len : Int) + v ≤ 0",
"claim": "negative index of the first element refused"
},
{
"file": "JsonPath/Model",
"def": "offsetVal",
"old": "some ((len : Int) + v).toNat",
"new": "some ((len : Int) + v - 1).toNat",
"claim": "negative indexes off by one"
},
{
"file": "JsonPath/Model",
"def": "offsetVal",
"old": "if v < 0 then\n      if",
"new": "if v ≤ 0 then\n      if",
"claim": "index 0 counted from the end"
},
{
"file": "JsonPath/Model",
"def": "up",
"old": "if j < e then",
"new": "if j ≤ e then",
"claim": "end inclusive when counting up"
},
{
"file": "JsonPath/Model",
"def": "up",
"old": "(j + step)",
"new": "(j + 1)",
"claim": "step ignored when counting up"
},
{
"file": "JsonPath/Model",
"def": "down",
"old": "if (e : Int) ≤ j then",
"new": "if (e : Int) < j then",
"claim": "end exclusive when counting down"
},
{
"file": "JsonPath/Model",
"def": "down",
"old": "(j - step)",
"new": "(j - 1)",
"claim": "step ignored when counting down"
},
{
"file": "JsonPath/Model",
"def": "slice",
"old": "((start : Int) - 1)",
"new": "(start : Int)",
"claim": "start inclusive when counting down"
},
{
"file": "JsonPath/Model",
"def": "slice",
"old": "(start > stop ∧ step > 0)",
"new": "(start > stop ∧ step < 0)",
"claim": "direction test inverted"
},
{
"file": "JsonPath/Model",
"def": "optVal",
"old": "some dflt",
"new": "offsetVal t len",
"claim": "missing bound is an error"
},
{
"file": "JsonPath/Model",
"def": "stepVal",
"old": "| none => some 1",
"new": "| none => some 2",
"claim": "default step 2"
},
{
"file": "JsonPath/Model",
"def": "stepVal",
"old": "if v = 0 then none else some v",
"new": "if v < 0 then none else some v",
"claim": "negative steps refused"
},
{
"file": "JsonPath/Model",
"def": "slicePart",
"old": "optVal b len len",
"new": "optVal b len 0",
"claim": "default end 0"
},
{
"file": "JsonPath/Model",
"def": "slicePart",
"old": "optVal a len 0",
"new": "optVal a len 1",
"claim": "default start 1"
},
{
"file": "JsonPath/Model",
"def": "part",
"old": "slicePart len a b none",
"new": "slicePart len b a none",
"claim": "start and end swapped"
},
{
"file": "JsonPath/Model",
"def": "part",
"old": "slicePart len a b (some c)",
"new": "slicePart len a b none",
"claim": "step ignored"
},
{
"file": "JsonPath/Model",
"def": "parts",
"old": "(l ++ ·)",
"new": "(· ++ l)",
"claim": "items in reverse order"
},
{
"file": "JsonPath/Model",
"def": "parts",
"old": "| .error => none",
"new": "| .error => parts len ts",
"claim": "bad index skipped: the failure no longer holds"
},
{
"file": "JsonPath/Model",
"def": "offsets",
"old": "Str.explode 44",
"new": "Str.explode 59",
"claim": "items separated by semicolons"
},
{
"file": "JsonPath/Model",
"def": "skip",
"old": "skip r true",
"new": "skip r deep",
"claim": "blank segment does not recurse"
},
{
"file": "JsonPath/Model",
"def": "caseeq",
"old": "a.map Chr.toLower == b.map Chr.toLower",
"new": "a == b",
"claim": "names compared with case"
},
{
"file": "JsonPath/Model",
"def": "overMembers",
"old": "seg = [42] ∨ caseeq seg k",
"new": "caseeq seg k",
"claim": "* selects nothing"
},
{
"file": "JsonPath/Model",
"def": "overMembers",
"old": "if deep then b.map",
"new": "if deep && !(caseeq seg k) then b.map",
"claim": "no deeper search below a match"
},
{
"file": "JsonPath/Model",
"def": "overMembers",
"old": "overMembers seg deep (i + 1)",
"new": "overMembers seg deep i",
"claim": "positions of members wrong"
},
{
"file": "JsonPath/Model",
"def": "overMembers",
"old": "overMembers seg deep (i + 1)",
"new": "overMembers seg false (i + 1)",
"claim": "only the first member searched recursively"
},
{
"file": "JsonPath/Model",
"def": "search",
"old": "overOffsets (elems l rest false)",
"new": "overOffsets (elems l rest deep)",
"claim": "recursion passed on from an index"
},
{
"file": "JsonPath/Model",
"def": "search",
"old": "then overElems 0 (elems l rest deep)",
"new": "then overElems 0 (elems l rest false)",
"claim": "recursion not passed on from [*]: the failure no longer holds"
},
{
"file": "JsonPath/Model",
"def": "search",
"old": "(if deep then overElems 0 (elems l (seg :: rest) true) else [])",
"new": "[]",
"claim": "arrays not searched recursively"
},
{
"file": "JsonPath/Model",
"def": "search",
"old": "overElems 0 (elems l (seg :: rest) true)",
"new": "overElems 0 (elems l (seg :: rest) false)",
"claim": "arrays searched recursively one level only"
},
{
"file": "JsonPath/Model",
"def": "search",
"old": "(members l (seg :: rest) true)",
"new": "(members l (seg :: rest) false)",
"claim": "objects searched recursively one level only"
},
{
"file": "JsonPath/Model",
"def": "search",
"old": "if seg.head? = some 91 then []\n        else overMembers",
"new": "if false then []\n        else overMembers",
"claim": "bracket looked for as a name in objects"
},
{
"file": "JsonPath/Model",
"def": "search",
"old": "if seg.head? = some 91 then overOffsets",
"new": "if false then overOffsets",
"claim": "indexes select nothing"
},
{
"file": "JsonPath/Model",
"def": "pieces",
"old": "if p = [] then [] else if first",
"new": "if first",
"claim": "blank piece before a bracket kept"
},
{
"file": "JsonPath/Model",
"def": "pieces",
"old": "else [91 :: p]",
"new": "else [p]",
"claim": "bracket not put back"
},
{
"file": "JsonPath/Model",
"def": "segments",
"old": "(segments ss).map ([] :: ·)",
"new": "segments ss",
"claim": "blank segments dropped"
},
{
"file": "JsonPath/Model",
"def": "segments",
"old": "s.head? ≠ some 91",
"new": "s.head? = some 91",
"claim": "name and bracket confused"
},
{
"file": "JsonPath/Model",
"def": "jsonpath",
"old": "expr.head? ≠ some 36",
"new": "expr.head? = some 35",
"claim": "any first byte accepted"
},
{
"file": "JsonPath/Model",
"def": "jsonpath",
"old": "expr.drop 1",
"new": "expr",
"claim": "dollar not skipped"
}
]