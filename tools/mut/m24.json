[
 {
  "file": "Decimal/Text",
  "def": "fromStr",
  "old": "if c = 46 then afterInt s len 0 s",
  "new": "if c = 46 then afterInt s len 1 s",
  "claim": ".5 is read as 0.5",
  "tightened": [
   "fromStr_point_partial"
  ]
 },
 {
  "file": "Decimal/Text",
  "def": "fromStr",
  "old": "| (.overflow, _) => some (.overflow, \u27e80, 0\u27e9, none)\n      | (.invalid, _) => some (.invalid, \u27e80, 0\u27e9, none)\n      | (.success, none) => none\n      | (.success, some (num, p)) => afterInt",
  "new": "| (.overflow, none) => none\n      | (.overflow, some (num, p)) => afterInt s len num p\n      | (.invalid, _) => some (.invalid, \u27e80, 0\u27e9, none)\n      | (.success, none) => none\n      | (.success, some (num, p)) => afterInt",
  "claim": "numbers too large are refused",
  "tightened": [
   "fromStr_overflow_partial"
  ]
 },
 {
  "file": "Json/Model",
  "def": "eatComment",
  "old": "if c = 42 then\n      match",
  "new": "if c = 43 then\n      match",
  "claim": "block comments are skipped"
 },
 {
  "file": "Json/Model",
  "def": "afterClose",
  "old": "| 42 :: 47 :: r => some r",
  "new": "| 47 :: 42 :: r => some r",
  "claim": "a block comment ends at its close"
 },
 {
  "file": "Json/Model",
  "def": "afterEol",
  "old": "(p.dropWhile (\u00b7 \u2260 10)).drop 1",
  "new": "p.dropWhile (\u00b7 \u2260 13)",
  "claim": "a line comment ends at the newline"
 },
 {
  "file": "Json/Model",
  "def": "eatLoop",
  "old": "if q[0]? = some 47 \u2227 p.length \u2260 q.length then eatLoop fuel q else some (.ok q)",
  "new": "some (.ok q)",
  "claim": "several comments in a row"
 },
 {
  "file": "Json/Model",
  "def": "eatIgnored",
  "old": "if fl.noComments then some (.ok (eatWs p)) else eatLoop (p.length + 1) p",
  "new": "eatLoop (p.length + 1) p",
  "claim": "NO_COMMENTS disallows comments"
 },
 {
  "file": "Json/Model",
  "def": "isHexMax",
  "old": "if Chr.isHex c then isHexMax n r else some false",
  "new": "isHexMax n r",
  "claim": "escapes must be hexadecimal"
 },
 {
  "file": "Json/Model",
  "def": "uniEscape",
  "old": "if p.length < 6 then some none",
  "new": "if p.length < 7 then some none",
  "claim": "escape at the end of the data"
 },
 {
  "file": "Json/Model",
  "def": "uniEscape",
  "old": "if p.length < 6 then some none",
  "new": "if p.length < 5 then some none",
  "claim": "an escape cut by the end of the data is refused"
 },
 {
  "file": "Json/Model",
  "def": "simpleEscape",
  "old": "else if ce = 98 then some 8",
  "new": "else if ce = 98 then some 7",
  "claim": "\\b is backspace"
 },
 {
  "file": "Json/Model",
  "def": "simpleEscape",
  "old": "else if ce = 110 then some 10",
  "new": "else if ce = 110 then some 13",
  "claim": "\\n is a newline"
 },
 {
  "file": "Json/Model",
  "def": "simpleEscape",
  "old": "if ce = 34 \u2228 ce = 47 \u2228 ce = 92 then some ce",
  "new": "if ce = 34 \u2228 ce = 47 \u2228 ce = 39 \u2228 ce = 92 then some ce",
  "claim": "\\' is not an escape"
 },
 {
  "file": "Json/Model",
  "def": "simpleEscape",
  "old": "if ce = 34 \u2228 ce = 47 \u2228 ce = 92 then some ce",
  "new": "if ce = 34 \u2228 ce = 92 then some ce",
  "claim": "\\/ is an escape"
 },
 {
  "file": "Json/Model",
  "def": "strLoop",
  "old": "if c = 34 then some (.ok (buf, r))",
  "new": "if c = 39 then some (.ok (buf, r))",
  "claim": "strings end at a quote"
 },
 {
  "file": "Json/Model",
  "def": "strLoop",
  "old": "else if c < 32 then",
  "new": "else if c < 31 then",
  "claim": "control characters are refused"
 },
 {
  "file": "Json/Model",
  "def": "strLoop",
  "old": "strLoop fl after fuel r (if ce = 92 then 0 else ce) (buf ++ [b])",
  "new": "strLoop fl after fuel r ce (buf ++ [b])",
  "claim": "an escaped backslash does not escape the next character"
 },
 {
  "file": "Json/Model",
  "def": "strLoop",
  "old": "strLoop fl after fuel (r.drop 4) ce",
  "new": "strLoop fl after fuel (r.drop 3) ce",
  "claim": "four digits are consumed"
 },
 {
  "file": "Json/Model",
  "def": "strLoop",
  "old": "else some (.error .invalidUnicodeEscape)",
  "new": "else strLoop fl after fuel r ce buf",
  "claim": "bad escapes are refused"
 },
 {
  "file": "Json/Model",
  "def": "strLoop",
  "old": "else strLoop fl after fuel r c (buf ++ [c])",
  "new": "else strLoop fl after fuel r c buf",
  "claim": "plain characters are kept"
 },
 {
  "file": "Json/Model",
  "def": "readString",
  "old": "buf.takeWhile (\u00b7 \u2260 0)",
  "new": "buf",
  "claim": "the string ends at the first zero byte"
 },
 {
  "file": "Json/Model",
  "def": "readNumber",
  "old": "if rv = .success \u2228 rv = .truncation \u2227 fl.allowTrunc = true then",
  "new": "if rv = .success then",
  "claim": "ALLOW_DECIMAL_TRUNCATION (flag not covered by a theorem about the value)"
 },
 {
  "file": "Json/Model",
  "def": "readNumber",
  "old": "if d.nd = 0 then .int d.num else .dec d",
  "new": "if d.nd \u2264 1 then .int d.num else .dec d",
  "claim": "decimals are not integers"
 },
 {
  "file": "Json/Model",
  "def": "readNumber",
  "old": "consume ((p ++ after).length - e.length) p",
  "new": "consume ((p ++ after).length - e.length + 1) p",
  "claim": "only the number is consumed"
 },
 {
  "file": "Json/Model",
  "def": "insert",
  "old": "if k = [] then l\n  else ",
  "new": "",
  "claim": "(source refuses empty keys) members with empty names are dropped"
 },
 {
  "file": "Json/Model",
  "def": "insert",
  "old": "l.map fun m => if m.1 == k then (k, v) else m",
  "new": "l",
  "claim": "the last of two members counts"
 },
 {
  "file": "Json/Model",
  "def": "insert",
  "old": "else l ++ [(k, v)]",
  "new": "else (k, v) :: l",
  "claim": "members keep their order"
 },
 {
  "file": "Json/Model",
  "def": "readValue",
  "old": "some (.ok (.bool true, (c :: r).drop 4))",
  "new": "some (.ok (.bool true, (c :: r).drop 5))",
  "claim": "true is four characters"
 },
 {
  "file": "Json/Model",
  "def": "readValue",
  "old": "some (.ok (.bool false, (c :: r).drop 5))",
  "new": "some (.ok (.bool true, (c :: r).drop 5))",
  "claim": "false is read as false"
 },
 {
  "file": "Json/Model",
  "def": "readValue",
  "old": "if (c :: r).take 4 = [110, 117, 108, 108] then some",
  "new": "if (c :: r).take 3 = [110, 117, 108] then some",
  "claim": "null is spelled out"
 },
 {
  "file": "Json/Model",
  "def": "readValue",
  "old": "else if c = 45 \u2228 Chr.isDigit c = true",
  "new": "else if Chr.isDigit c = true",
  "claim": "negative numbers are read"
 },
 {
  "file": "Json/Model",
  "def": "readValue",
  "old": "else if c = 45 \u2228 Chr.isDigit c = true",
  "new": "else if c = 45 \u2228 c = 43 \u2228 Chr.isDigit c = true",
  "claim": "numbers do not start with a plus"
 },
 {
  "file": "Json/Model",
  "def": "readValue",
  "old": "else if c = 45 \u2228 Chr.isDigit c = true",
  "new": "else if c = 45 \u2228 c = 46 \u2228 Chr.isDigit c = true",
  "claim": "numbers do not start with a point"
 },
 {
  "file": "Json/Model",
  "def": "readObj",
  "old": "if c \u2260 58 then some (.error .missingPairSeparator)",
  "new": "if c = 44 then some (.error .missingPairSeparator)",
  "claim": "a colon follows the name"
 },
 {
  "file": "Json/Model",
  "def": "readObj",
  "old": "else if c \u2260 34 then some (.error .invalidPairStart)",
  "new": "else if c = 58 then some (.error .invalidPairStart)",
  "claim": "names are quoted"
 },
 {
  "file": "Json/Model",
  "def": "readObj",
  "old": "if p = [] \u2228 p[0]? = some 125 then some (.error .expectedValue)\n                    else ",
  "new": "",
  "claim": "no comma before the closing brace"
 },
 {
  "file": "Json/Model",
  "def": "readObj",
  "old": "else readObj fl after fuel p (insert acc key v)",
  "new": "else readObj fl after fuel p acc",
  "claim": "members are inserted"
 },
 {
  "file": "Json/Model",
  "def": "readObj",
  "old": "if fl.uniqueKeys = true \u2227 acc.any (fun m => m.1 == key) = true",
  "new": "if acc.any (fun m => m.1 == key) = true",
  "claim": "duplicates are refused with the flag only"
 },
 {
  "file": "Json/Model",
  "def": "readArr",
  "old": "if q = [] \u2228 q[0]? = some 93 then some (.error .expectedValue)\n              else ",
  "new": "",
  "claim": "no comma before the closing bracket"
 },
 {
  "file": "Json/Model",
  "def": "readArr",
  "old": "else readArr fl after fuel p.length q (acc ++ [v])",
  "new": "else readArr fl after fuel p.length q (v :: acc)",
  "claim": "elements keep their order"
 },
 {
  "file": "Json/Model",
  "def": "readArr",
  "old": "if p = [] then some (.error .unclosedArray)",
  "new": "if p = [] then some (.ok (.arr acc, []))",
  "claim": "arrays must be closed"
 },
 {
  "file": "Json/Model",
  "def": "readArr",
  "old": "else if len = p.length then some (.error .unclosedArray)\n    else",
  "new": "else",
  "claim": "a number cut at its point does not loop"
 },
 {
  "file": "Json/Model",
  "def": "read",
  "old": "if root = false then some (.error .invalidStart)\n    else",
  "new": "",
  "claim": "the root is an array or object"
 },
 {
  "file": "Json/Model",
  "def": "read",
  "old": "if whole = true \u2227 p.length > 0 then some (.error .expectedEnd) else",
  "new": "",
  "claim": "nothing follows the document"
 },
 {
  "file": "Json/Model",
  "def": "read",
  "old": "(if p.length > 0 then eatIgnored fl p else some (.ok p))",
  "new": "(some (.ok p))",
  "claim": "white space may follow"
 },
 {
  "file": "Json/Model",
  "def": "indent",
  "old": "List.replicate (depth * 2) 32",
  "new": "List.replicate (depth * 2) 95",
  "claim": "indentation is white space"
 },
 {
  "file": "Json/Model",
  "def": "newline",
  "old": "if fl.winLineEnd then [13, 10] else [10]",
  "new": "if fl.winLineEnd then [92, 110] else [10]",
  "claim": "line ends are white space"
 },
 {
  "file": "Json/Model",
  "def": "hexDig",
  "old": "if n < 10 then 48 + n else 55 + n",
  "new": "if n < 10 then 48 + n else 65 + n",
  "claim": "hexadecimal digits"
 },
 {
  "file": "Json/Model",
  "def": "hex4",
  "old": "List.replicate (4 - (hexStr n).length) 48",
  "new": "List.replicate (3 - (hexStr n).length) 48",
  "claim": "four digits"
 },
 {
  "file": "Json/Model",
  "def": "wStrLoop",
  "old": "else if c = 13 then wStrLoop fl fuel r (acc ++ [92, 114])",
  "new": "else if c = 13 then wStrLoop fl fuel r (acc ++ [92, 110])",
  "claim": "carriage returns survive"
 },
 {
  "file": "Json/Model",
  "def": "wStrLoop",
  "old": "if c = 34 \u2228 c = 92 then acc ++ [92] else acc",
  "new": "if c = 34 then acc ++ [92] else acc",
  "claim": "backslashes are escaped"
 },
 {
  "file": "Json/Model",
  "def": "wStrLoop",
  "old": "if c < 32 then wStrLoop",
  "new": "if c < 31 then wStrLoop",
  "claim": "control characters are escaped"
 },
 {
  "file": "Json/Model",
  "def": "wStrLoop",
  "old": "else if c > 127 then",
  "new": "else if c > 128 then",
  "claim": "byte 128 starts nothing (equivalent on valid UTF-8)"
 },
 {
  "file": "Json/Model",
  "def": "wStrLoop",
  "old": "acc ++ if fl.dontEncode then (c :: r).take n else [92, 117] ++ hex4 cp",
  "new": "acc ++ if fl.dontEncode then (c :: r).take 1 else [92, 117] ++ hex4 cp",
  "claim": "characters are copied whole"
 },
 {
  "file": "Json/Model",
  "def": "wStr",
  "old": "o.map fun t => t ++ [34]",
  "new": "o",
  "claim": "the closing quote"
 },
 {
  "file": "Json/Model",
  "def": "intStr",
  "old": "(if n < 0 then [45] else [])",
  "new": "[]",
  "claim": "the sign"
 },
 {
  "file": "Json/Model",
  "def": "jsMax",
  "old": "9007199254740991",
  "new": "9007199254740990",
  "claim": "largest integer written as number"
 },
 {
  "file": "Json/Model",
  "def": "wInt",
  "old": "(if fl.noCompat = false \u2227 big then [34] else [])",
  "new": "[]",
  "claim": "quotes match (big integers)"
 },
 {
  "file": "Json/Model",
  "def": "wDec",
  "old": "let q : List UInt8 := if fl.noCompat = false \u2227 (d.nd > 15",
  "new": "let q : List UInt8 := if (d.nd > 15",
  "claim": "NO_COMPAT writes all decimals as numbers"
 },
 {
  "file": "Json/Model",
  "def": "write",
  "old": "(some (some (indent fl depth ++ [93])))",
  "new": "(some (some (indent fl depth ++ [125])))",
  "claim": "arrays are closed with their bracket"
 },
 {
  "file": "Json/Model",
  "def": "writeElems",
  "old": "(if l.isEmpty then [] else [44])",
  "new": "[44]",
  "claim": "no comma after the last element"
 },
 {
  "file": "Json/Model",
  "def": "writeMembers",
  "old": "(if l.isEmpty then [] else [44])",
  "new": "[]",
  "claim": "commas between members"
 },
 {
  "file": "Json/Model",
  "def": "writeMembers",
  "old": "++ k ++ [34] ++ sp ++ [58] ++ sp",
  "new": "++ k ++ [34] ++ sp ++ [61] ++ sp",
  "claim": "a colon follows the name"
 }
]