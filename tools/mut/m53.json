[
{
"file": "Re/SubModel",
"def": "readUint",
"old": "rest.length + 1 - e.length",
"new": "rest.length - e.length",
"claim": "consumed length off by one"
},
{
"file": "Re/SubModel",
"def": "readUint",
"old": "if n > rest.length ∨ rest.length = 0 then some none",
"new": "if n ≥ rest.length ∨ rest.length = 0 then some none",
"claim": "a number at the end of the template is not read"
},
{
"file": "Re/SubModel",
"def": "readUint",
"old": "n 10 with",
"new": "n 16 with",
"claim": "references in base 16"
},
{
"file": "Re/SubModel",
"def": "refNum",
"old": "match readUint rest 2 with",
"new": "match readUint rest 1 with",
"claim": "only one digit"
},
{
"file": "Re/SubModel",
"def": "refNum",
"old": "match readUint rest 2 with",
"new": "match readUint rest 3 with",
"claim": "three digits"
},
{
"file": "Re/SubModel",
"def": "refNum",
"old": "| some none => readUint rest 1",
"new": "| some none => some none",
"claim": "one digit at the end of the template not recognised"
},
{
"file": "Re/SubModel",
"def": "refClose",
"old": "if e = 62 then some (v, r) else none",
"new": "some (v, r)",
"claim": "\\g<1 closed by any character"
},
{
"file": "Re/SubModel",
"def": "refClose",
"old": "some (v, r)",
"new": "some (v, e :: r)",
"claim": "the > stays in the text"
},
{
"file": "Re/SubModel",
"def": "refG",
"old": "if d ≠ 60 then some none",
"new": "if false then some none",
"claim": "\\g(1> accepted"
},
{
"file": "Re/SubModel",
"def": "ref",
"old": "if isDigit c then refNum (c :: r)",
"new": "if isDigit c then refNum r",
"claim": "first digit skipped"
},
{
"file": "Re/SubModel",
"def": "ref",
"old": "else if c = 103 then refG r",
"new": "else if c = 71 then refG r",
"claim": "\\G instead of \\g"
},
{
"file": "Re/SubModel",
"def": "ref",
"old": "if isDigit c then refNum (c :: r)\n    else",
"new": "",
"claim": "numeric references not recognised"
},
{
"file": "Re/SubModel",
"def": "slice",
"old": ".take l.toNat",
"new": ".take (l.toNat - 1)",
"claim": "last byte of a capture lost"
},
{
"file": "Re/SubModel",
"def": "slice",
"old": "(s.drop o.toNat)",
"new": "(s.drop (o.toNat + 1))",
"claim": "captures start one late"
},
{
"file": "Re/SubModel",
"def": "capText",
"old": "| none => some []",
"new": "| none => none",
"claim": "reference to a missing group is undefined"
},
{
"file": "Re/SubModel",
"def": "capText",
"old": "match capIdx m v with",
"new": "match capIdx m (v + 1) with",
"claim": "references counted from one"
},
{
"file": "Re/SubModel",
"def": "buildLoop",
"old": "(buf.dropLast ++ x)",
"new": "(buf ++ x)",
"claim": "the backslash of a reference stays"
},
{
"file": "Re/SubModel",
"def": "buildLoop",
"old": "| some none => buildLoop s m n r buf",
"new": "| some none => buildLoop s m n r buf.dropLast",
"claim": "other backslashes are dropped"
},
{
"file": "Re/SubModel",
"def": "buildLoop",
"old": "if r.isEmpty then some buf",
"new": "if r.isEmpty then some buf.dropLast",
"claim": "backslash at the end dropped"
},
{
"file": "Re/SubModel",
"def": "buildLoop",
"old": "| [] => some (buf ++ rest)",
"new": "| [] => some buf",
"claim": "text after the last reference lost"
},
{
"file": "Re/SubModel",
"def": "buildLoop",
"old": "buf ++ rest.takeWhile (· != 92) ++ [b]",
"new": "buf ++ [b]",
"claim": "text before a backslash lost"
},
{
"file": "Re/SubModel",
"def": "build1",
"old": "repl.length + 1",
"new": "2",
"claim": "only two backslashes handled"
},
{
"file": "Re/SubModel",
"def": "subLoop",
"old": "slice s pos (cLen s - pos)",
"new": "slice s pos 0",
"claim": "text after the last match lost"
},
{
"file": "Re/SubModel",
"def": "subLoop",
"old": "((capIdx0 m).1 + (capIdx0 m).2) (buf",
"new": "((capIdx0 m).1) (buf",
"claim": "matched text kept behind the replacement"
},
{
"file": "Re/SubModel",
"def": "subLoop",
"old": "((capIdx0 m).1 - pos)",
"new": "((capIdx0 m).1)",
"claim": "text before a later match too long"
},
{
"file": "Re/SubModel",
"def": "subLoop",
"old": "(buf ++ x ++ y)",
"new": "(buf ++ y)",
"claim": "text before a match lost"
},
{
"file": "Re/SubModel",
"def": "subLoop",
"old": "(buf ++ x ++ y)",
"new": "(buf ++ y ++ x)",
"claim": "replacement before the text it follows"
},
{
"file": "Re/SubModel",
"def": "sub",
"old": "| some none => some (s.take (cLen s))",
"new": "| some none => some []",
"claim": "no list of matches gives an empty text"
},
{
"file": "Re/SubModel",
"def": "findLoop",
"old": "findLoop s ms (acc ++ [x])",
"new": "findLoop s ms (x :: acc)",
"claim": "matches in reverse order"
},
{
"file": "Re/SubModel",
"def": "findLoop",
"old": "slice s o l with",
"new": "slice s 0 l with",
"claim": "pieces from the beginning of the text"
}
]