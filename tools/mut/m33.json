[
{
"file": "Http/HeaderModel",
"def": "same",
"old": "a.map toLower == b.map toLower",
"new": "a == b",
"claim": "names are compared without case"
},
{
"file": "Http/HeaderModel",
"def": "tput",
"old": "then (e.1, v) else e",
"new": "then (k, v) else e",
"claim": "the name first given stays"
},
{
"file": "Http/HeaderModel",
"def": "tput",
"old": "if k = [] then t\n  else if",
"new": "if",
"claim": "empty names of modifiers are refused"
},
{
"file": "Http/HeaderModel",
"def": "tput",
"old": "else t ++ [(k, v)]",
"new": "else (k, v) :: t",
"claim": "the order is that of insertion"
},
{
"file": "Http/HeaderModel",
"def": "tget",
"old": "t.find? fun e => same e.1 k",
"new": "t.find? fun e => e.1 == k",
"claim": "lookups ignore case"
},
{
"file": "Http/HeaderModel",
"def": "tdel",
"old": "!same e.1 k",
"new": "e.1 != k",
"claim": "removal ignores case"
},
{
"file": "Http/HeaderModel",
"def": "modText",
"old": "if m.2 = [] then [] else 61 :: m.2",
"new": "61 :: m.2",
"claim": "flags have no equals sign"
},
{
"file": "Http/HeaderModel",
"def": "valueString",
"old": "joinStr [59, 32]",
"new": "joinStr [59]",
"claim": "modifiers are separated by a semicolon and a space"
},
{
"file": "Http/HeaderModel",
"def": "addMod",
"old": "tput (Str.trim k) (Str.trim v) ms",
"new": "tput (Str.trim k) v ms",
"claim": "modifiers are trimmed"
},
{
"file": "Http/HeaderModel",
"def": "addMod",
"old": "tput (Str.trim k) [] ms",
"new": "ms",
"claim": "flags are kept"
},
{
"file": "Http/HeaderModel",
"def": "addMod",
"old": "some (tput (Str.trim k) (Str.trim v) ms)",
"new": "some (tput (Str.trim v) (Str.trim k) ms)",
"claim": "name and text of a modifier"
},
{
"file": "Http/HeaderModel",
"def": "splitValue",
"old": "some ⟨Str.trim p, ms⟩",
"new": "some ⟨p, ms⟩",
"claim": "values are trimmed"
},
{
"file": "Http/HeaderModel",
"def": "splitValue",
"old": "(ps.foldlM addMod [])",
"new": "(ps.tail.foldlM addMod [])",
"claim": "the first modifier is kept"
},
{
"file": "Http/HeaderModel",
"def": "addValue",
"old": "else vs ++ [v]",
"new": "else v :: vs",
"claim": "values stay in order"
},
{
"file": "Http/HeaderModel",
"def": "addValue",
"old": "v.mods.foldl (fun ms m => tput m.1 m.2 ms) e.mods",
"new": "e.mods",
"claim": "modifiers of a value are merged"
},
{
"file": "Http/HeaderModel",
"def": "addValue",
"old": "v.mods.foldl (fun ms m => tput m.1 m.2 ms) e.mods",
"new": "v.mods.foldl (fun ms m => if ms.any (fun e => same e.1 m.1) then ms else tput m.1 m.2 ms) e.mods",
"claim": "a later character set wins"
},
{
"file": "Http/HeaderModel",
"def": "update",
"old": "(parts.foldlM addValues h.values)",
"new": "(parts.foldlM addValues [])",
"claim": "added values do not replace"
},
{
"file": "Http/HeaderModel",
"def": "headerText",
"old": "if nosplit h.key then [32] else [44, 32]",
"new": "[32]",
"claim": "values are separated by commas"
},
{
"file": "Http/HeaderModel",
"def": "headerText",
"old": "if nosplit h.key then [32] else [44, 32]",
"new": "if nosplit h.key then [44, 32] else [44]",
"claim": "values are separated by a comma and a space"
},
{
"file": "Http/HeaderModel",
"def": "mergeOne",
"old": "(e.1, some r.2)",
"new": "(kv.1, some r.2)",
"claim": "the name first given stays when values are added"
},
{
"file": "Http/HeaderModel",
"def": "setHeaders",
"old": "(if merge then s else [])",
"new": "s",
"claim": "headers set at once replace the others"
},
{
"file": "Http/HeaderModel",
"def": "setHeaders",
"old": "(if merge then s else [])",
"new": "[]",
"claim": "headers merged keep the others"
},
{
"file": "Http/HeaderModel",
"def": "setHeader",
"old": "if append then s else tdel k s",
"new": "s",
"claim": "setting replaces"
},
{
"file": "Http/HeaderModel",
"def": "setHeader",
"old": "if append then s else tdel k s",
"new": "tdel k s",
"claim": "adding keeps"
},
{
"file": "Http/HeaderModel",
"def": "removeHeader",
"old": "if k = [] then s else tdel k s",
"new": "s",
"claim": "headers are removed"
},
{
"file": "Http/HeaderModel",
"def": "getHeader",
"old": "((tget k s).getD none).bind headerText",
"new": "((tget k s).getD none).map (·.key)",
"claim": "the value is read"
},
{
"file": "Http/WriterModel",
"def": "decimal",
"old": "[UInt8.ofNat (48 + n % 10)]",
"new": "[UInt8.ofNat (48 + n / 10 % 10)]",
"claim": "digits of the length"
},
{
"file": "Http/WriterModel",
"def": "intText",
"old": "45 :: decimal i.natAbs",
"new": "decimal i.natAbs",
"claim": "years before 0"
},
{
"file": "Http/WriterModel",
"def": "two",
"old": "48 :: t",
"new": "32 :: t",
"claim": "two digits"
},
{
"file": "Http/WriterModel",
"def": "getDate",
"old": "[44, 32] ++ two tm.day",
"new": "[32] ++ two tm.day",
"claim": "format of the date"
},
{
"file": "Http/WriterModel",
"def": "getDate",
"old": "months.getD (tm.month - 1).toNat []",
"new": "months.getD tm.month.toNat []",
"claim": "name of the month"
},
{
"file": "Http/WriterModel",
"def": "getDate",
"old": "two tm.hour ++ [58] ++ two tm.min",
"new": "two tm.min ++ [58] ++ two tm.hour",
"claim": "format of the time"
},
{
"file": "Http/WriterModel",
"def": "getDate",
"old": "days.getD tm.wday.toNat []",
"new": "days.getD (tm.wday.toNat - 1) []",
"claim": "name of the day"
},
{
"file": "Http/WriterModel",
"def": "days",
"old": "[84, 117, 101], [87, 101, 100]",
"new": "[87, 101, 100], [84, 117, 101]",
"claim": "names of the days"
},
{
"file": "Http/WriterModel",
"def": "months",
"old": "[74, 117, 110], [74, 117, 108]",
"new": "[74, 117, 108], [74, 117, 110]",
"claim": "names of the months"
},
{
"file": "Http/WriterModel",
"def": "mput",
"old": "(e.1, e.2 ++ [v])",
"new": "(e.1, [v])",
"claim": "a program named twice gets both names"
},
{
"file": "Http/WriterModel",
"def": "requestHeaders",
"old": "if port = 0 ∨ port = 80 then host",
"new": "if port = 0 then host",
"claim": "the usual port is left out"
},
{
"file": "Http/WriterModel",
"def": "requestHeaders",
"old": "if port = 0 ∨ port = 80 then host",
"new": "if port = 0 ∨ port = 80 ∨ port = 443 then host",
"claim": "other ports are written"
},
{
"file": "Http/WriterModel",
"def": "requestHeaders",
"old": "(tdel kHost t))",
"new": "t)",
"claim": "the host replaces that of the headers"
},
{
"file": "Http/WriterModel",
"def": "requestHeaders",
"old": "else if (tget kHost t).isSome then some t\n    else none",
"new": "else none",
"claim": "a Host header is enough"
},
{
"file": "Http/WriterModel",
"def": "requestHeaders",
"old": "if agent = [] then t else mput kAgent agent t",
"new": "t",
"claim": "the program is named"
},
{
"file": "Http/WriterModel",
"def": "dataLength",
"old": "if len = 0 then Str.strlen mem else some len",
"new": "Str.strlen mem",
"claim": "a length given is kept"
},
{
"file": "Http/WriterModel",
"def": "dataLength",
"old": "if len = 0 then Str.strlen mem else some len",
"new": "some len",
"claim": "the length of a text is found"
},
{
"file": "Http/WriterModel",
"def": "dataLength",
"old": "if c = 0 then some len else if",
"new": "if",
"claim": "texts of no bytes"
},
{
"file": "Http/WriterModel",
"def": "writeLength",
"old": "data.isSome ∧ i.toNat ≠ len",
"new": "i.toNat ≠ len",
"claim": "NULL data is not compared with the length"
},
{
"file": "Http/WriterModel",
"def": "writeLength",
"old": "if data.isSome ∧ i.toNat ≠ len then some none else ",
"new": "",
"claim": "a wrong length is refused"
},
{
"file": "Http/WriterModel",
"def": "writeLength",
"old": "setHeader s kLength (decimal len) false",
"new": "setHeader s kLength (decimal (len + 1)) false",
"claim": "the length written is that of the data"
},
{
"file": "Http/WriterModel",
"def": "writeLength",
"old": "(decimal len) false).map fun r => some (len, r.2)",
"new": "(decimal len) false).map fun r => some (len, s)",
"claim": "the length is written"
},
{
"file": "Http/WriterModel",
"def": "writeType",
"old": "if ctype ≠ [] then (setHeader s kType ctype false)",
"new": "if ctype ≠ [] then (setHeader s kType ctype true)",
"claim": "the type given replaces that of the headers"
},
{
"file": "Http/WriterModel",
"def": "writeType",
"old": "else if given then some s\n  else",
"new": "else",
"claim": "a type of the headers is kept"
},
{
"file": "Http/WriterModel",
"def": "writeType",
"old": "if charset = [] then vOctets else vText",
"new": "if charset = [] then vText else vOctets",
"claim": "the usual type"
},
{
"file": "Http/WriterModel",
"def": "writeCharset",
"old": "[59, 32] ++ (vCharset",
"new": "[44, 32] ++ (vCharset",
"claim": "the character set is a modifier"
},
{
"file": "Http/WriterModel",
"def": "writeCharset",
"old": "if charset = [] then some s\n  else",
"new": "if charset ≠ [] then some s\n  else",
"claim": "the character set is written"
},
{
"file": "Http/WriterModel",
"def": "writeCharset",
"old": "take 127",
"new": "take 12",
"claim": "long character sets"
},
{
"file": "Http/WriterModel",
"def": "writeDate",
"old": "if given then some s\n  else",
"new": "",
"claim": "a date of the headers is kept"
},
{
"file": "Http/WriterModel",
"def": "writeDate",
"old": "setHeader s sDate",
"new": "setHeader s kAgent",
"claim": "the date has its name"
},
{
"file": "Http/WriterModel",
"def": "writeLines",
"old": "[58, 32]",
"new": "[58]",
"claim": "a space after the colon"
},
{
"file": "Http/WriterModel",
"def": "writeLines",
"old": "(getHeader s k).getD [] ++ crlf",
"new": "(getHeader s k).getD []",
"claim": "lines end"
},
{
"file": "Http/WriterModel",
"def": "writeBody",
"old": "writeLines s ++ crlf ++ mem.take len",
"new": "writeLines s ++ crlf ++ mem",
"claim": "only the bytes of the length are sent"
},
{
"file": "Http/WriterModel",
"def": "writeBody",
"old": "writeLines s ++ crlf ++ mem.take len",
"new": "writeLines s ++ mem.take len",
"claim": "the empty line"
},
{
"file": "Http/WriterModel",
"def": "writeInt",
"old": "(data.isSome ∧ len ≠ 0) ∧ (dictGet s kEncoding).isSome",
"new": "False",
"claim": "a coding with data is refused"
},
{
"file": "Http/WriterModel",
"def": "writeInt",
"old": "(dictGet s kType).isSome ctype",
"new": "(dictGet s1 kEncoding).isSome ctype",
"claim": "a type of the headers is found"
},
{
"file": "Http/WriterModel",
"def": "writeInt",
"old": "(dictGet s sDate).isSome now",
"new": "true now",
"claim": "the date is written"
},
{
"file": "Http/WriterModel",
"def": "writeTarget",
"old": "if uri = [] then [47] else uri",
"new": "uri",
"claim": "the address of no text is a slash"
},
{
"file": "Http/WriterModel",
"def": "writeTarget",
"old": "(32 : UInt8) ∈ uri ∨ ",
"new": "",
"claim": "spaces are escaped"
},
{
"file": "Http/WriterModel",
"def": "writeTarget",
"old": "c ≥ 128",
"new": "c > 128",
"claim": "bytes from 128 on are escaped"
},
{
"file": "Http/WriterModel",
"def": "writeTarget",
"old": ".urlMin",
"new": ".urlPlus",
"claim": "spaces are escaped as %20"
},
{
"file": "Http/WriterModel",
"def": "writeRequest",
"old": "target ++ [32] ++ sVersion",
"new": "sVersion ++ [32] ++ target",
"claim": "order of the first line"
},
{
"file": "Http/WriterModel",
"def": "writeRequest",
"old": "match requestHeaders hs host port agent with",
"new": "match requestHeaders hs host 80 agent with",
"claim": "the port is written"
},
{
"file": "Http/WriterModel",
"def": "writeResponse",
"old": "decimal code ++ [32]",
"new": "decimal code",
"claim": "a space after the code"
},
{
"file": "Http/WriterModel",
"def": "writeResponse",
"old": "if reason = [] then reasonText code else reason",
"new": "reasonText code",
"claim": "the reason given is written"
},
{
"file": "Http/WriterModel",
"def": "reasonText",
"old": "| 404 => [78, 111, 116,",
"new": "| 405 => [78, 111, 116,",
"claim": "names of the codes"
},
{
"file": "Http/WriterModel",
"def": "kLength",
"old": "76, 101, 110, 103, 116, 104]",
"new": "76, 101, 110, 103, 116]",
"claim": "the name of the length"
},
{
"file": "Http/WriterModel",
"def": "vCharset",
"old": "61]",
"new": "58]",
"claim": "the character set has an equals sign"
}
]