[
 {
  "file": "Csv/Model",
  "def": "finish",
  "old": "if trim then Str.trim s else s",
  "new": "Str.trim s",
  "claim": "trimming is optional",
  "tightened": [
   "Verif.Csv.parse_correct"
  ]
 },
 {
  "file": "Csv/Model",
  "def": "finish",
  "old": "if s = [] then none else some s",
  "new": "some s",
  "claim": "empty cells are absent"
 },
 {
  "file": "Csv/Model",
  "def": "removeQuotes",
  "old": "if t = [quote] then [] else t",
  "new": "t",
  "claim": "cell of a lone quote",
  "tightened": [
   "Verif.Csv.parse_correct"
  ]
 },
 {
  "file": "Csv/Model",
  "def": "finish",
  "old": "if trim then Str.trim s else s",
  "new": "s",
  "claim": "trimming",
  "tightened": [
   "Verif.Csv.parse_correct"
  ]
 },
 {
  "file": "Textcodec/Model",
  "def": "process",
  "old": "c ≥ 128 ∨ c > 0x7E ∨ c = 37",
  "new": "c ≥ 128 ∨ c > 0x7E",
  "claim": "the percent sign is encoded"
 },
 {
  "file": "Textcodec/Model",
  "def": "process",
  "old": "c < 0x21 ∨ c ≥ 128 ∨ c > 0x7E",
  "new": "c < 0x20 ∨ c ≥ 128 ∨ c > 0x7E",
  "claim": "the space is encoded"
 },
 {
  "file": "Textcodec/Model",
  "def": "process",
  "old": "c < 0x21 ∨ c ≥ 128 ∨ c > 0x7E",
  "new": "c < 0x21 ∨ c ≥ 128 ∨ c > 0x7F",
  "claim": "DEL is encoded"
 },
 {
  "file": "Textcodec/Model",
  "def": "process",
  "old": ".form => reserved c || (c == 43 || c == 126)",
  "new": ".form => reserved c",
  "claim": "plus is encoded in forms"
 },
 {
  "file": "Textcodec/Model",
  "def": "process",
  "old": ".formMin => c == 43 || c == 126",
  "new": ".formMin => false",
  "claim": "plus is encoded in forms"
 },
 {
  "file": "Textcodec/Model",
  "def": "process",
  "old": "c < 0x21 ∨ c ≥ 128 ∨ c > 0x7E",
  "new": "c < 0x21 ∨ c > 0xA0",
  "claim": "bytes above ASCII are encoded"
 },
 {
  "file": "Textcodec/Model",
  "def": "pctEncLoop",
  "old": "if v.isForm then [43] else [37, 50, 48]",
  "new": "[43]",
  "claim": "space in the URL variants"
 },
 {
  "file": "Textcodec/Model",
  "def": "pctEncLoop",
  "old": "if v.isForm then [43] else [37, 50, 48]",
  "new": "if v.isForm then [37, 50, 48] else [43]",
  "claim": "space in the variants swapped"
 },
 {
  "file": "Textcodec/Model",
  "def": "pctEncLoop",
  "old": "(out ++ 37 :: hex)",
  "new": "(out ++ hex)",
  "claim": "escape starts with a percent sign"
 },
 {
  "file": "Textcodec/Model",
  "def": "pctDecLoop",
  "old": "if c = 43 ∧ v.isForm = true then pctDecLoop eh v (a :: b :: s) rc (out ++ [32])",
  "new": "if c = 43 then pctDecLoop eh v (a :: b :: s) rc (out ++ [32])",
  "claim": "plus is a space in forms only"
 },
 {
  "file": "Textcodec/Model",
  "def": "pctDecLoop",
  "old": "| d :: _ => pctDecLoop eh v s rc (out ++ [d])",
  "new": "| d :: _ => pctDecLoop eh v (b :: s) rc (out ++ [d])",
  "claim": "both digits are consumed"
 },
 {
  "file": "Textcodec/Model",
  "def": "pctDecLoop",
  "old": "| [] => if eh = .fail then some (bad eh out) else",
  "new": "| [] => if eh = .replace then some (bad eh out) else",
  "claim": "bad escapes fail"
 },
 {
  "file": "Textcodec/Model",
  "def": "pctDecLoop",
  "old": "else if c ≠ 37 then some (rc, out ++ [c])",
  "new": "else if c ≠ 37 then some (rc, out)",
  "claim": "the last byte is kept"
 },
 {
  "file": "Textcodec/Model",
  "def": "pctDecode",
  "old": "eh = .fail ∧ s.any (· ≥ 128)",
  "new": "False",
  "claim": "input that is not ASCII is refused"
 },
 {
  "file": "Textcodec/Model",
  "def": "qpEsc",
  "old": "c < 32 ∨ c = 61 ∨ c > 126",
  "new": "c < 32 ∨ c > 126",
  "claim": "the equals sign is encoded"
 },
 {
  "file": "Textcodec/Model",
  "def": "qpHex",
  "old": "[61, hexDig.getD (c.toNat / 16) 0, hexDig.getD (c.toNat % 16) 0]",
  "new": "[61, hexDig.getD (c.toNat % 16) 0, hexDig.getD (c.toNat / 16) 0]",
  "claim": "order of the digits"
 },
 {
  "file": "Textcodec/Model",
  "def": "qpWrap",
  "old": "if cnt > 72 then",
  "new": "if cnt > 74 then",
  "claim": "lines are at most 76 long"
 },
 {
  "file": "Textcodec/Model",
  "def": "qpWrap",
  "old": "if cnt > 72 then (0,",
  "new": "if cnt > 72 then (1,",
  "claim": "count is reset; only earlier breaks"
 },
 {
  "file": "Textcodec/Model",
  "def": "qpWrap",
  "old": "if cnt > 72 then (0, [61, 13, 10])",
  "new": "if cnt > 72 then (0, [13, 10])",
  "claim": "soft break has an equals sign"
 },
 {
  "file": "Textcodec/Model",
  "def": "qpWrap",
  "old": "let cnt := if c = 10 then 0 else cnt",
  "new": "let cnt := if c = 13 then 0 else cnt",
  "claim": "line feeds reset the count"
 },
 {
  "file": "Textcodec/Model",
  "def": "qpEncLoop",
  "old": "(qpWrap c (cnt + 3)).1 (out",
  "new": "(qpWrap c (cnt + 1)).1 (out",
  "claim": "escapes count three"
 },
 {
  "file": "Textcodec/Model",
  "def": "readInt",
  "old": "rest.length + 1 - e.length",
  "new": "rest.length - e.length",
  "claim": "what the number consumes"
 },
 {
  "file": "Textcodec/Model",
  "def": "qpStep",
  "old": "if rest.length < 2 then",
  "new": "if rest.length ≤ 2 then",
  "claim": "escape at the end"
 },
 {
  "file": "Textcodec/Model",
  "def": "qpStep",
  "old": "some (false, rc, rest.drop 2, out)",
  "new": "some (false, rc, rest.drop 1, out)",
  "claim": "soft break is removed"
 },
 {
  "file": "Textcodec/Model",
  "def": "qpStep",
  "old": "if rest.take 2 = [13, 10] then",
  "new": "if rest.take 2 = [10, 13] then",
  "claim": "soft break is CR LF"
 },
 {
  "file": "Textcodec/Model",
  "def": "qpDecLoop",
  "old": "(qpStep eh rest rc (out ++ s.take len))",
  "new": "(qpStep eh rest rc out)",
  "claim": "text before an escape is kept"
 },
 {
  "file": "Textcodec/Model",
  "def": "qpDecLoop",
  "old": "r.1 = true ∨ r.2.2.1 = []",
  "new": "r.1 = true",
  "claim": "empty input at the end"
 },
 {
  "file": "Textcodec/Model",
  "def": "qpEnd",
  "old": "(rc, out ++ rest)",
  "new": "(rc, out)",
  "claim": "text after the last escape is kept"
 }
]