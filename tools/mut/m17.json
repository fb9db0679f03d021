[
 {
  "file": "Buf/Model",
  "def": "consume",
  "old": "(wr d b.len [0])",
  "new": "(wr d (b.len + 1) [0])",
  "claim": "terminator after compaction"
 },
 {
  "file": "Buf/Model",
  "def": "consume",
  "old": "{ b with data := d, cons := 0 }",
  "new": "{ b with data := d }",
  "claim": "compaction resets consumed"
 },
 {
  "file": "Buf/Model",
  "def": "truncate",
  "old": "b.len ≤ length ∨",
  "new": "b.len < length ∨",
  "claim": "truncate to current length keeps terminator (equivalent?)"
 },
 {
  "file": "Buf/Model",
  "def": "truncate",
  "old": "(wr d (b.cons + length) [0])",
  "new": "(wr d length [0])",
  "claim": "terminator of a truncated buffer with dropped front"
 },
 {
  "file": "Buf/Model",
  "def": "drop",
  "old": "len := b.len - min num b.len",
  "new": "len := b.len - num",
  "claim": "drop more than there is"
 },
 {
  "file": "Buf/Model",
  "def": "drop",
  "old": "(List.replicate (min num b.len) 0xFF)",
  "new": "(List.replicate num 0xFF)",
  "claim": "drop does not write outside the allocation"
 },
 {
  "file": "Buf/Model",
  "def": "growLoop",
  "old": "if needed > n then",
  "new": "if needed > n + 1 then",
  "claim": "allocation is large enough"
 },
 {
  "file": "Buf/Model",
  "def": "enlarge",
  "old": "if new > b.size then",
  "new": "if new > b.size + 1 then",
  "claim": "allocation is large enough"
 },
 {
  "file": "Buf/Model",
  "def": "enlarge",
  "old": "realloc g b.data (s + 1)",
  "new": "realloc g b.data s",
  "claim": "room for the terminator"
 },
 {
  "file": "Buf/Model",
  "def": "ensureSpace",
  "old": "(b.size + W - b.cons) % W",
  "new": "b.size",
  "claim": "consumed prefix counts against the room"
 },
 {
  "file": "Buf/Model",
  "def": "upperByte",
  "old": "if Chr.isLower c then Chr.toUpper c else c",
  "new": "Chr.toLower c",
  "claim": "upper-case transformation"
 },
 {
  "file": "Buf/Model",
  "def": "ltrimAt",
  "old": "rd d (off + i) (n - i)",
  "new": "rd d (off + i) n",
  "claim": "left trim moves the remaining bytes only"
 },
 {
  "file": "Buf/Model",
  "def": "rtrimAt",
  "old": "if Chr.isSpace c then rtrimAt d off n else some (n + 1)",
  "new": "if Chr.isSpace c then rtrimAt d off n else some n",
  "claim": "right trim keeps the last character"
 },
 {
  "file": "Buf/Model",
  "def": "trRound",
  "old": "(wr r.1 (off + r.2) [0])",
  "new": "(wr r.1 (off + s.2) [0])",
  "claim": "terminator behind the trimmed text"
 },
 {
  "file": "Buf/Model",
  "def": "trRound",
  "old": "else s.1.len - (s.2 - r.2)",
  "new": "else s.1.len",
  "claim": "length after trimming"
 },
 {
  "file": "Buf/Model",
  "def": "append",
  "old": "len := b.len + bytes.length",
  "new": "len := bytes.length",
  "claim": "append keeps the old bytes"
 },
 {
  "file": "Buf/Model",
  "def": "merge",
  "old": "(rd src.data 0 src.len)",
  "new": "(rd src.data src.cons src.len)",
  "claim": "code as written copies from the start of the allocation"
 },
 {
  "file": "Buf/Model",
  "def": "trim",
  "old": "(truncate b truncNum).bind fun b => drop b dropNum",
  "new": "(drop b dropNum).bind fun b => truncate b truncNum",
  "claim": "trim truncates first"
 },
 {
  "file": "Buf/Model",
  "def": "justCut",
  "old": "src.drop (src.length - width)",
  "new": "src.drop width",
  "claim": "justify keeps the tail"
 },
 {
  "file": "Buf/Model",
  "def": "justify",
  "old": "(width - s.length + 1) / 2",
  "new": "(width - s.length + 2) / 2",
  "claim": "centred field has the given width"
 },
 {
  "file": "Buf/Model",
  "def": "justAt",
  "old": "b.cons + (b.len + r.2 - n)",
  "new": "b.cons + b.len",
  "claim": "terminator behind the field"
 },
 {
  "file": "Buf/Model",
  "def": "addJust",
  "old": "(b.cons + b.len) r.2 j",
  "new": "(b.cons + b.len + 1) r.2 j",
  "claim": "field is placed behind the data"
 },
 {
  "file": "Buf/Model",
  "def": "writeEnd",
  "old": "len := b.len + n }",
  "new": "len := n }",
  "claim": "direct write appends"
 }
]