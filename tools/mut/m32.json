[
{
"file": "Http/Model",
"def": "validateLength",
"old": "if st.haveLen then (.headerDuplicate, st)\n  else if",
"new": "if",
"claim": "C85 two lengths accepted"
},
{
"file": "Http/Model",
"def": "validateLength",
"old": "else if st.format = .chunked then (.ok, { st with haveLen := false, bodyLen := 0 })\n  ",
"new": "",
"claim": "C85 a length after the coding wins"
},
{
"file": "Http/Model",
"def": "validateLength",
"old": "format := if i = 0 then .none else st.format",
"new": "format := st.format",
"claim": "C85 a body is announced for length zero"
},
{
"file": "Http/Model",
"def": "validateLength",
"old": "haveLen := true, bodyLen := i.toNat",
"new": "haveLen := true, bodyLen := i.toNat + 1",
"claim": "C85 body too long"
},
{
"file": "Http/Model",
"def": "validateLength",
"old": "haveLen := true, bodyLen := i.toNat",
"new": "haveLen := false, bodyLen := i.toNat",
"claim": "C85 length forgotten"
},
{
"file": "Http/Model",
"def": "validateLength",
"old": "v.length 10 with",
"new": "v.length 16 with",
"claim": "C85 length in hexadecimal"
},
{
"file": "Http/Model",
"def": "validateEncoding",
"old": "(.ok, { st with haveLen := false, bodyLen := if st.haveLen then 0 else st.bodyLen, format := .chunked })",
"new": "(.ok, if st.haveLen then st else { st with format := .chunked })",
"claim": "C85 a length in front of the coding wins"
},
{
"file": "Http/Model",
"def": "validate",
"old": "Str.eq true k sContentLength then",
"new": "Str.eq false k sContentLength then",
"claim": "C85 Content-Length in other case not seen"
},
{
"file": "Http/Model",
"def": "validate",
"old": "Str.eqStart true v sChunked",
"new": "Str.eqStart false v sChunked",
"claim": "C85 Chunked in other case not seen"
},
{
"file": "Http/Model",
"def": "validate",
"old": "if Str.eq true k sContentType then validateType r2.2 v",
"new": "if true then validateType r2.2 v",
"claim": "C85 any field with boundary in it is refused"
},
{
"file": "Http/Model",
"def": "fullEv",
"old": "| .header => [.headerFull k v]",
"new": "| .header => []",
"claim": "C85 headerFull callback missing"
},
{
"file": "Http/Model",
"def": "process",
"old": "| .trailer => (call cb (.trailer k v), st, [.trailer k v])",
"new": "| .trailer => (call cb (.header k v), st, [.header k v])",
"claim": "C85 trailer reported as header"
},
{
"file": "Http/Model",
"def": "nosplit",
"old": " || Str.eq true k sDate",
"new": "",
"claim": "C85 a date split at its comma"
},
{
"file": "Http/Model",
"def": "splitVals",
"old": "some (parts.map Str.trim)",
"new": "some (parts.reverse.map Str.trim)",
"claim": "C85 order of values"
},
{
"file": "Http/Model",
"def": "splitVals",
"old": "if nosplit k then",
"new": "if !nosplit k then",
"claim": "C85 wrong fields split"
},
{
"file": "Http/Model",
"def": "valueLoop",
"old": "(r2.1, r2.2.1, r.2.2 ++ r2.2.2)",
"new": "(r2.1, r2.2.1, r2.2.2)",
"claim": "C85 values dropped"
},
{
"file": "Http/Model",
"def": "headerLine",
"old": "headerLen := st.headerLen + line.length }",
"new": "headerLen := st.headerLen + 2 * line.length }",
"claim": "C85 limit of the header"
},
{
"file": "Http/Model",
"def": "headerLine",
"old": "if st.headerLen > maxHeaders",
"new": "if st.headerLen ≥ maxHeaders",
"claim": "C85 limit off by one"
},
{
"file": "Http/Model",
"def": "headerLine",
"old": "Scan.split line [58] 2 false true",
"new": "Scan.split line [58] 0 false true",
"claim": "C85 value cut at its second colon"
},
{
"file": "Http/Model",
"def": "headerLoop",
"old": "if crlf.isPrefixOf p then ⟨.ok, true, st, p.drop 2, []⟩",
"new": "if crlf.isPrefixOf p then ⟨.ok, true, st, p, []⟩",
"claim": "C85 empty line left in the body"
},
{
"file": "Http/Model",
"def": "headerLoop",
"old": "headerLoop cb fuel r.2.1 (p.drop (n + 3))",
"new": "headerLoop cb fuel st (p.drop (n + 3))",
"claim": "C85 what a field said is forgotten"
},
{
"file": "Http/Model",
"def": "startResponse",
"old": "Ev.response v (code % 4294967296) (strdup c)",
"new": "Ev.response v (code % 4294967296) none",
"claim": "C85 reason dropped"
},
{
"file": "Http/Model",
"def": "startResponse",
"old": "code % 4294967296",
"new": "code % 256",
"claim": "C85 status code cut"
},
{
"file": "Http/Model",
"def": "startResponse",
"old": "{ st with kind := .response }",
"new": "{ st with kind := .request }",
"claim": "C85 body of a response without length ignored"
},
{
"file": "Http/Model",
"def": "startRequest",
"old": "m = .get ∨ m = .head ∨ m = .delete ∨ m = .trace",
"new": "m = .get ∨ m = .head ∨ m = .delete",
"claim": "C85 TRACE announced with a body"
},
{
"file": "Http/Model",
"def": "startRequest",
"old": "{ st with kind := .request }",
"new": "st",
"claim": "C85 request without length takes what follows as its body"
},
{
"file": "Http/Model",
"def": "startLine",
"old": "Scan.split line [32] 3 true false",
"new": "Scan.split line [32] 0 true false",
"claim": "C85 reason with a space refused"
},
{
"file": "Http/Model",
"def": "startLine",
"old": "Scan.split line [32] 3 true false",
"new": "Scan.split line [32] 3 false false",
"claim": "C85 empty reason refused"
},
{
"file": "Http/Model",
"def": "startLine",
"old": "line.length > maxStart",
"new": "line.length ≥ maxStart",
"claim": "C85 limit of the first line"
},
{
"file": "Http/Model",
"def": "versionFromStr",
"old": "some .v10 else",
"new": "some .v11 else",
"claim": "C85 version wrong"
},
{
"file": "Http/Model",
"def": "methods",
"old": "([80, 65, 84, 67, 72], .patch)",
"new": "([80, 65, 84, 67, 72], .put)",
"claim": "C85 method wrong"
},
{
"file": "Http/Model",
"def": "readBody",
"old": "min p.length (st.bodyLen - st.seen)",
"new": "p.length",
"claim": "C85 body runs into the next message"
},
{
"file": "Http/Model",
"def": "readBody",
"old": "if call cb e = .ok then p.drop len else p, [e]⟩",
"new": "p, [e]⟩",
"claim": "C85 body not read"
},
{
"file": "Http/Model",
"def": "readBody",
"old": "{ st with seen := st.seen + len }",
"new": "{ st with seen := len }",
"claim": "C84 C85 pieces counted wrongly"
},
{
"file": "Http/Model",
"def": "extLoop",
"old": "| some [k] => go k none",
"new": "| some [k] => go k (some [])",
"claim": "C85 extension without value"
},
{
"file": "Http/Model",
"def": "extLoop",
"old": "(r.1, e :: r.2)",
"new": "(r.1, r.2)",
"claim": "C85 extensions dropped"
},
{
"file": "Http/Model",
"def": "chunkExts",
"old": "r.2 ++ [.chunkExtDone i]",
"new": "r.2 ++ [.chunkExtDone (i + 1)]",
"claim": "C85 number of the chunk"
},
{
"file": "Http/Model",
"def": "chunkLine",
"old": "Num.toInt64Ex line len 16",
"new": "Num.toInt64Ex line len 10",
"claim": "C85 chunk size in decimal"
},
{
"file": "Http/Model",
"def": "chunkLine",
"old": "seen := 0 }",
"new": "seen := st.seen }",
"claim": "C85 second chunk shortened"
},
{
"file": "Http/Model",
"def": "chunkLine",
"old": "(e.drop 1)",
"new": "e",
"claim": "C85 semicolon in the extension"
},
{
"file": "Http/Model",
"def": "chunkLine",
"old": "line.length > maxStart",
"new": "line.length ≥ maxStart",
"claim": "C85 limit of the chunk line"
},
{
"file": "Http/Model",
"def": "readChunkData",
"old": "q.drop 2, [e]⟩",
"new": "q, [e]⟩",
"claim": "C85 line end after a chunk left"
},
{
"file": "Http/Model",
"def": "readChunkData",
"old": "min p.length (st.bodyLen - st.seen)",
"new": "min p.length st.bodyLen",
"claim": "C84 C85 chunk too long when cut"
},
{
"file": "Http/Model",
"def": "readChunked",
"old": "step := .trailer, headerLen := 0",
"new": "step := .trailer",
"claim": "C85 trailer within its own limit refused"
},
{
"file": "Http/Model",
"def": "readChunked",
"old": "step := .chunkStart, part := st.part + 1",
"new": "step := .chunkStart",
"claim": "C85 number of the chunk"
},
{
"file": "Http/Model",
"def": "readChunked",
"old": "if st.bodyLen = 0 then\n          (emit",
"new": "if st.bodyLen ≤ 1 then\n          (emit",
"claim": "C85 a chunk of one byte ends the message"
},
{
"file": "Http/Model",
"def": "readTrailer",
"old": "emit cb .trailerDone { st with step := .done } p",
"new": "emit cb .trailerDone st p",
"claim": "C85 message never complete"
},
{
"file": "Http/Model",
"def": "calculateBodyLen",
"old": "else if st.kind = .request ∧ st.haveLen = false then (.ok, { st with haveLen := true, bodyLen := 0 })",
"new": "",
"claim": "C85 request without length takes what follows"
},
{
"file": "Http/Model",
"def": "chooseStep",
"old": "if st.noBody = true ∧ st.haveLen = false then",
"new": "if st.noBody = true then",
"claim": "C85 GET with a length: body left"
},
{
"file": "Http/Model",
"def": "chooseStep",
"old": "| .chunked => { st with step := .chunkStart }",
"new": "| .chunked => { st with step := .body }",
"claim": "C85 chunks not decoded"
},
{
"file": "Http/Model",
"def": "endOfHeader",
"old": "emit cb (.headerDone r.2.format) r.2 p",
"new": "emit cb (.headerDone st.format) r.2 p",
"claim": "C85 format told wrongly"
},
{
"file": "Http/Model",
"def": "readContent",
"old": "emit cb .bodyDone { st with step := .done } p",
"new": "emit cb .bodyDone st p",
"claim": "C85 message never complete"
},
{
"file": "Http/Model",
"def": "verdict",
"old": "st.format = .body ∧ st.step = .body ∧ st.haveLen = false",
"new": "st.format = .body ∧ st.step = .body",
"claim": "C84 C85 morePossible for a body with a length"
},
{
"file": "Http/Model",
"def": "read",
"old": "data.length - o.rest.length, o.st",
"new": "data.length, o.st",
"claim": "C85 bytes after the message swallowed"
},
{
"file": "Http/Model",
"def": "cstr",
"old": "bs.takeWhile (· ≠ 0)",
"new": "bs.dropLast",
"claim": "C85 strings cut"
}
]