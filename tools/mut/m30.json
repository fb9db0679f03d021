[
{
"file": "FsPath/Model",
"def": "isAbs",
"old": "!win && p.head? == some 47",
"new": "!win && p.getLast? == some 47",
"claim": "A path is absolute by its first character"
},
{
"file": "FsPath/Model",
"def": "isAbs",
"old": "b == 58 ||",
"new": "b == 59 ||",
"claim": "A drive makes a path absolute"
},
{
"file": "FsPath/Model",
"def": "sysSep",
"old": "if win then 92 else 47",
"new": "if win then 47 else 92",
"claim": "The separator of the system"
},
{
"file": "FsPath/Model",
"def": "listSplit",
"old": "(explode d s).map (·.filter (· ≠ []))",
"new": "explode d s",
"claim": "Empty parts are dropped"
},
{
"file": "FsPath/Model",
"def": "splitAll",
"old": "splitAll xs (out ++ ys.filter (· ≠ []))",
"new": "splitAll xs (ys.filter (· ≠ []) ++ out)",
"claim": "Parts keep their order"
},
{
"file": "FsPath/Model",
"def": "componentize",
"old": "(win = false ∧ isAbs win p = true) ∨",
"new": "(win = false ∧ isAbs win p = false) ∨",
"claim": "An absolute path keeps its root"
},
{
"file": "FsPath/Model",
"def": "componentize",
"old": "(win = true ∧ isUnc p = true)",
"new": "(win = true ∧ isAbs win p = true)",
"claim": "A drive is not an empty root"
},
{
"file": "FsPath/Model",
"def": "joinParts",
"old": "some (if win then [92, 92] else [47])",
"new": "some (if win then [92, 92] else [])",
"claim": "The root alone is written as separator"
},
{
"file": "FsPath/Model",
"def": "joinParts",
"old": "List.replicate (if parts.length = 1 then 2 else 1) [] ++ parts",
"new": "parts",
"claim": "A machine name has two separators"
},
{
"file": "FsPath/Model",
"def": "joinParts",
"old": "then [h, []] else parts",
"new": "then [h] else parts",
"claim": "A drive alone has a separator"
},
{
"file": "FsPath/Model",
"def": "pathJoin",
"old": "if isAbs win p2 then p2",
"new": "if isAbs win p1 then p2",
"claim": "Only an absolute second path stands alone"
},
{
"file": "FsPath/Model",
"def": "pathJoin",
"old": "p1.getLast? ≠ some (sysSep win)",
"new": "p1.getLast? = some (sysSep win)",
"claim": "A separator is put between"
},
{
"file": "FsPath/Model",
"def": "split",
"old": "let parts := parts.dropLast",
"new": "let parts := parts",
"claim": "The directory is without the name"
},
{
"file": "FsPath/Model",
"def": "split",
"old": "if temp = some [] then none else temp",
"new": "temp",
"claim": "A root has no name"
},
{
"file": "FsPath/Model",
"def": "split",
"old": "if parts.length = 0 ∧ isAbs win p = true then",
"new": "if isAbs win p = true then",
"claim": "The name is split off absolute paths"
},
{
"file": "FsPath/Model",
"def": "normSep",
"old": "win = true ∧ c = 47 then sysSep win",
"new": "win = true ∧ c = 92 then 47",
"claim": "Separators are replaced on Windows"
},
{
"file": "FsPath/Model",
"def": "expandEnv",
"old": "d.head? == some 36 ||",
"new": "d.length == 1 ||",
"claim": "Names that are no variables stay"
},
{
"file": "FsPath/Model",
"def": "normHome",
"old": "some (t ++ dirs.tail)",
"new": "some (t ++ dirs)",
"claim": "The tilde is replaced"
},
{
"file": "FsPath/Model",
"def": "normHome",
"old": "if dirs.head? = some [126] then",
"new": "if dirs.head? = some [126] ∨ dirs.length = 1 then",
"claim": "Only the tilde is replaced"
},
{
"file": "FsPath/Model",
"def": "normAbs",
"old": "some (t ++ dirs)",
"new": "some (dirs ++ t)",
"claim": "The current directory comes first"
},
{
"file": "FsPath/Model",
"def": "normAbs",
"old": "if d = [] ∨",
"new": "if d ≠ [] ∨",
"claim": "Only relative paths get the current directory"
},
{
"file": "FsPath/Model",
"def": "removeParent",
"old": "∨ last = [] then dirs",
"new": "∨ last = [] then dirs ++ [[46, 46]]",
"claim": "The parent of the root is the root"
},
{
"file": "FsPath/Model",
"def": "removeParent",
"old": "(win = true ∧ isAbs win last = true) ∨ last = []",
"new": "last = []",
"claim": "The parent of a drive is the drive"
},
{
"file": "FsPath/Model",
"def": "removeParent",
"old": "else if last = [46, 46] then dirs ++ [[46, 46]]",
"new": "else if last = [46, 46] then dirs.dropLast",
"claim": "Leading parents add up"
},
{
"file": "FsPath/Model",
"def": "removeParent",
"old": "| none => dirs ++ [[46, 46]]",
"new": "| none => dirs",
"claim": "A parent at the front of a relative path stays"
},
{
"file": "FsPath/Model",
"def": "normLink",
"old": "if isAbs win t then [] else base.dropLast",
"new": "base.dropLast",
"claim": "An absolute target starts at the root"
},
{
"file": "FsPath/Model",
"def": "normLink",
"old": "if isAbs win t then [] else base.dropLast",
"new": "if isAbs win t then [] else base",
"claim": "A relative target starts in the directory of the link"
},
{
"file": "FsPath/Model",
"def": "normLink",
"old": "joinParts win (base ++ ct ++ parts)",
"new": "joinParts win (base ++ ct)",
"claim": "The names after the link are kept"
},
{
"file": "FsPath/Model",
"def": "normLink",
"old": "| .err => some (some (.err .sys))",
"new": "| .err => some none",
"claim": "An error of the system is given back"
},
{
"file": "FsPath/Model",
"def": "normLoop",
"old": "else normLoop win fl follow sys again parts base",
"new": "else normLoop win fl follow sys again parts (base ++ [s])",
"claim": "Dots are dropped"
},
{
"file": "FsPath/Model",
"def": "normLoop",
"old": "if fl.noParent = false ∧ s = [46, 46] then",
"new": "if follow = false ∧ fl.noParent = false ∧ s = [46, 46] then",
"claim": "Parents are resolved with links too"
},
{
"file": "FsPath/Model",
"def": "normLoop",
"old": "match normLink win sys again (base ++ [s]) parts with",
"new": "match normLink win sys again base parts with",
"claim": "The link at the name just added is read"
},
{
"file": "FsPath/Model",
"def": "normLoop",
"old": "      if follow then",
"new": "      if follow ∧ parts = [] then",
"claim": "Links within the path are followed"
},
{
"file": "FsPath/Model",
"def": "normInt",
"old": "if p ∈ seen then .err .linkLoop",
"new": "if seen ≠ [] then .err .linkLoop",
"claim": "Less than 25 links are followed"
},
{
"file": "FsPath/Model",
"def": "normInt",
"old": "| none => .ok [46]",
"new": "| none => .ok []",
"claim": "The current directory is written as a dot"
},
{
"file": "FsPath/Model",
"def": "normInt",
"old": "normInt win sys n fl' (p :: seen)",
"new": "normInt win sys 0 fl' (p :: seen)",
"claim": "Less than 25 links are followed"
},
{
"file": "FsPath/Model",
"def": "norm",
"old": "normInt win sys 25 fl",
"new": "normInt win sys 24 fl",
"claim": "24 links are followed"
}
]