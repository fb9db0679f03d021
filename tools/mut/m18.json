[
 {
  "file": "Parser/Model",
  "def": "markedStart",
  "old": "(m, (p.pos + W - m) % W)",
  "new": "(m, p.pos)",
  "claim": "marked length"
 },
 {
  "file": "Parser/Model",
  "def": "markClear",
  "old": "q.markI = none \u2227 q.markU = none",
  "new": "q.markI = none \u2228 q.markU = none",
  "claim": "clearing one mark must not wipe bytes under the other"
 },
 {
  "file": "Parser/Model",
  "def": "markClear",
  "old": "(0, 0) else markedStart p true true",
  "new": "(0, 0) else (p.pos, (markedStart p true true).2)",
  "claim": "wiped region starts at the mark"
 },
 {
  "file": "Parser/Model",
  "def": "compact",
  "old": "if s.1 \u2260 0 \u2227 keep \u2260 0 then",
  "new": "if keep \u2260 0 then",
  "claim": "moving from offset 0 is harmless (equivalent?)"
 },
 {
  "file": "Parser/Model",
  "def": "compact",
  "old": "(p.len + s.2) % W",
  "new": "p.len % W",
  "claim": "marked bytes are kept"
 },
 {
  "file": "Parser/Model",
  "def": "compact",
  "old": "markU := p.markU.map (\u00b7 - s.1)",
  "new": "markU := p.markU",
  "claim": "marks move with the data"
 },
 {
  "file": "Parser/Model",
  "def": "compact",
  "old": "{ p with mem := m, pos := s.2,",
  "new": "{ p with mem := m, pos := 0,",
  "claim": "position behind the kept marked bytes"
 },
 {
  "file": "Parser/Model",
  "def": "ensureSpace",
  "old": "len > (r.1.mem.length + W - r.2.1) % W",
  "new": "len > r.1.mem.length",
  "claim": "room behind the kept bytes"
 },
 {
  "file": "Parser/Model",
  "def": "ensureSpace",
  "old": "len > (r.1.mem.length + W - r.2.1) % W",
  "new": "len \u2265 (r.1.mem.length + W - r.2.1) % W",
  "claim": "growing one early is harmless (equivalent?)"
 },
 {
  "file": "Parser/Model",
  "def": "append",
  "old": "len := p.len + bytes.length }, true)",
  "new": "len := bytes.length }, true)",
  "claim": "append keeps the length"
 },
 {
  "file": "Parser/Model",
  "def": "append",
  "old": "(p.pos + p.len) bytes",
  "new": "p.len bytes",
  "claim": "append behind the remaining bytes"
 },
 {
  "file": "Parser/Model",
  "def": "directWrite",
  "old": "(p.pos + p.len) bytes",
  "new": "p.pos bytes",
  "claim": "direct write behind the remaining bytes"
 },
 {
  "file": "Parser/Model",
  "def": "keepMark",
  "old": "if k > pos then none",
  "new": "if k \u2265 pos then none",
  "claim": "mark at the rewound position survives"
 },
 {
  "file": "Parser/Model",
  "def": "rewindInt",
  "old": "len := p.len + n, consumed := p.consumed - n",
  "new": "len := p.len + n",
  "claim": "offset after rewind"
 },
 {
  "file": "Parser/Model",
  "def": "rewindInt",
  "old": "q.line - (bs.filter (\u00b7 = 10)).length",
  "new": "q.line",
  "claim": "line after rewind"
 },
 {
  "file": "Parser/Model",
  "def": "rewindInt",
  "old": "scanBack (p.mem.take q.pos).reverse",
  "new": "scanBack (p.mem.take q.pos)",
  "claim": "column after rewind"
 },
 {
  "file": "Parser/Model",
  "def": "truncate",
  "old": "(List.replicate (p.len - n) 0xFF)",
  "new": "(List.replicate p.len 0xFF)",
  "claim": "truncate wipes within the buffer"
 },
 {
  "file": "Parser/Model",
  "def": "truncate",
  "old": "if p.len < n then",
  "new": "if p.len \u2264 n then",
  "claim": "truncate to the same length succeeds"
 },
 {
  "file": "Parser/Model",
  "def": "consume",
  "old": "if n > p.len then",
  "new": "if n \u2265 p.len then",
  "claim": "consume everything"
 },
 {
  "file": "Parser/Model",
  "def": "consume",
  "old": "p.markU = none \u2227 p.markI = none then wr",
  "new": "p.markU = none then wr",
  "claim": "bytes under the internal mark are kept"
 },
 {
  "file": "Parser/Model",
  "def": "consume",
  "old": "p.markU = none \u2227 p.markI = none then wr",
  "new": "p.markI = none then wr",
  "claim": "bytes under the mark are kept"
 },
 {
  "file": "Parser/Model",
  "def": "advance",
  "old": "(lc.1 + 1, 0)",
  "new": "(lc.1 + 1, 1)",
  "claim": "column after a line feed"
 },
 {
  "file": "Parser/Model",
  "def": "readBytes",
  "old": "p.len < n \u2228 n = 0",
  "new": "p.len < n",
  "claim": "reading zero bytes fails"
 },
 {
  "file": "Parser/Model",
  "def": "readMark",
  "old": "(markedStart p u i).2 > bufLen",
  "new": "(markedStart p u i).2 \u2265 bufLen",
  "claim": "marked bytes that fill the buffer"
 },
 {
  "file": "Parser/Model",
  "def": "readMark",
  "old": "(markClear p u i).map",
  "new": "(markClear p u u).map",
  "claim": "reading clears the right mark"
 },
 {
  "file": "Parser/Model",
  "def": "reset",
  "old": "(rewindInt p p.consumed)",
  "new": "(rewindInt p p.pos)",
  "claim": "reset goes back over everything consumed (equivalent for const?)"
 },
 {
  "file": "Parser/Scan",
  "def": "untilLen",
  "old": "k + pat.length else k",
  "new": "k + pat.length + 1 else k",
  "claim": "eat exactly the pattern"
 },
 {
  "file": "Parser/Scan",
  "def": "boundaryLoop",
  "old": "if j + 1 \u2265 pat.length then",
  "new": "if j \u2265 pat.length then",
  "claim": "found when all bytes matched"
 },
 {
  "file": "Parser/Scan",
  "def": "boundaryLoop",
  "old": "(i + 1) 0 (i + 1)",
  "new": "(i + 1) 0 i",
  "claim": "consumed length after mismatch"
 },
 {
  "file": "Parser/Scan",
  "def": "boundary",
  "old": "r.1 + pat.length",
  "new": "r.1 + 1",
  "claim": "eat the whole pattern"
 },
 {
  "file": "Parser/Scan",
  "def": "charset",
  "old": "charset set incl cs + 1 else 0",
  "new": "charset set incl cs + 1 else 1",
  "claim": "charset stops before the first other byte"
 },
 {
  "file": "Parser/Scan",
  "def": "predMax",
  "old": "| max + 1, c :: cs",
  "new": "| max + 2, c :: cs",
  "claim": "predicate limit"
 },
 {
  "file": "Parser/Scan",
  "def": "whitespace",
  "old": "if nl = true \u2227 c = 10 then 1",
  "new": "if nl = true \u2227 c = 10 then 0",
  "claim": "newline is consumed"
 },
 {
  "file": "Parser/Scan",
  "def": "eol",
  "old": "if c = 10 then 1",
  "new": "if c = 10 then 0",
  "claim": "eol consumes the line feed"
 },
 {
  "file": "Parser/Scan",
  "def": "countLoop",
  "old": "cnt + 1 = max then some (cnt + 1)",
  "new": "cnt + 1 = max then some cnt",
  "claim": "array size with a limit"
 },
 {
  "file": "Parser/Scan",
  "def": "splitLoop",
  "old": "max \u2260 0 \u2227 out.length + 1 = max",
  "new": "max \u2260 0 \u2227 out.length = max",
  "claim": "limit of split"
 },
 {
  "file": "Parser/Scan",
  "def": "splitLoop",
  "old": "rest.take (n - pat.length)",
  "new": "rest.take n",
  "claim": "delimiter is trimmed"
 },
 {
  "file": "Parser/Scan",
  "def": "splitLoop",
  "old": "rest.take (n - pat.length)",
  "new": "rest.take (n - 1)",
  "claim": "delimiter of several bytes is trimmed"
 },
 {
  "file": "Parser/Scan",
  "def": "split",
  "old": "keep = false \u2227 out.getLast? = some []",
  "new": "out.getLast? = some []",
  "claim": "DONT_TRIM_LAST flag"
 },
 {
  "file": "Parser/Scan",
  "def": "split",
  "old": "cnt = 1 \u2227 err = true",
  "new": "cnt \u2264 2 \u2227 err = true",
  "claim": "NODELIM_ERROR only without delimiter"
 },
 {
  "file": "Parser/Scan",
  "def": "frame",
  "old": "data.drop 1).take (n - 2)",
  "new": "data.drop 1).take (n - 1)",
  "claim": "message without ETX"
 },
 {
  "file": "Parser/Scan",
  "def": "frame",
  "old": "if stx then data else data.drop 1",
  "new": "if etx then data else data.drop 1",
  "claim": "STX flag"
 },
 {
  "file": "Parser/Scan",
  "def": "frame",
  "old": "some ((data.drop 1).take (n - 2)), n + 1)",
  "new": "some ((data.drop 1).take (n - 2)), n)",
  "claim": "checksum byte is consumed"
 }
]