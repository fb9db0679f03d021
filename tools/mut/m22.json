[
 {
  "file": "Textcodec/Punycode",
  "def": "adapt",
  "old": "delta / 700 else",
  "new": "delta / 7 else",
  "claim": "damping of the first delta (RFC)"
 },
 {
  "file": "Textcodec/Punycode",
  "def": "adapt",
  "old": "r.1 + 38",
  "new": "r.1 + 36",
  "claim": "skew"
 },
 {
  "file": "Textcodec/Punycode",
  "def": "adaptLoop",
  "old": "delta > 455",
  "new": "delta ≥ 455",
  "claim": "bias loop boundary"
 },
 {
  "file": "Textcodec/Punycode",
  "def": "adapt",
  "old": "if numpoints = 0 then none",
  "new": "if numpoints = 1 then none",
  "claim": "division by zero"
 },
 {
  "file": "Textcodec/Punycode",
  "def": "encodeDigit",
  "old": "d ≤ 25",
  "new": "d ≤ 26",
  "claim": "digit 26 is 0"
 },
 {
  "file": "Textcodec/Punycode",
  "def": "decodeDigit",
  "old": "d - 0x16",
  "new": "d - 0x17",
  "claim": "digit 0 is 26"
 },
 {
  "file": "Textcodec/Punycode",
  "def": "decodeDigit",
  "old": "d ≥ 0x61 ∧ d ≤ 0x7A",
  "new": "d ≥ 0x61 ∧ d < 0x7A",
  "claim": "z is a digit"
 },
 {
  "file": "Textcodec/Punycode",
  "def": "threshold",
  "old": "if k ≥ bias + 26 then 26",
  "new": "if k ≥ bias + 27 then 27",
  "claim": "tmax"
 },
 {
  "file": "Textcodec/Punycode",
  "def": "threshold",
  "old": "if k ≤ bias + 1 then 1",
  "new": "if k ≤ bias then 0",
  "claim": "tmin"
 },
 {
  "file": "Textcodec/Punycode",
  "def": "encDigits",
  "old": "if q < t then",
  "new": "if q ≤ t then",
  "claim": "last digit is below the threshold"
 },
 {
  "file": "Textcodec/Punycode",
  "def": "encDigits",
  "old": "(k + 36) ((q - t) / (36 - t))",
  "new": "(k + 36) ((q - t) / 36)",
  "claim": "radix of a digit"
 },
 {
  "file": "Textcodec/Punycode",
  "def": "encDigits",
  "old": "encodeDigit (t + (q - t) % (36 - t))",
  "new": "encodeDigit ((q - t) % (36 - t))",
  "claim": "digit offset"
 },
 {
  "file": "Textcodec/Punycode",
  "def": "encPass",
  "old": "if c < n then",
  "new": "if c ≤ n then",
  "claim": "only code points before n are counted"
 },
 {
  "file": "Textcodec/Punycode",
  "def": "encPass",
  "old": "⟨0, bias, (s.h + 1) % M",
  "new": "⟨s.delta, bias, (s.h + 1) % M",
  "claim": "delta restarts after a code point"
 },
 {
  "file": "Textcodec/Punycode",
  "def": "encPass",
  "old": "⟨0, bias, (s.h + 1) % M",
  "new": "⟨0, bias, s.h % M",
  "claim": "count of handled code points"
 },
 {
  "file": "Textcodec/Punycode",
  "def": "encPass",
  "old": "(s.h == b)",
  "new": "(s.h == 0)",
  "claim": "first delta when the text has ASCII characters"
 },
 {
  "file": "Textcodec/Punycode",
  "def": "encPass",
  "old": "adapt s.delta ((s.h + 1) % M)",
  "new": "adapt s.delta (s.h % M)",
  "claim": "number of points for the bias"
 },
 {
  "file": "Textcodec/Punycode",
  "def": "encLoop",
  "old": "⟨(s.delta + 1) % M,",
  "new": "⟨s.delta % M,",
  "claim": "delta counts the pass"
 },
 {
  "file": "Textcodec/Punycode",
  "def": "encLoop",
  "old": "encLoop cps b ms ((m + 1) % M)",
  "new": "encLoop cps b ms (m % M)",
  "claim": "next code point"
 },
 {
  "file": "Textcodec/Punycode",
  "def": "encLoop",
  "old": "s.delta + d * ((s.h + 1) % M)) % M",
  "new": "s.delta + d * (s.h % M)) % M",
  "claim": "positions per code point"
 },
 {
  "file": "Textcodec/Punycode",
  "def": "insertSet",
  "old": "else if m = x then x :: xs else",
  "new": "else",
  "claim": "the list is a set"
 },
 {
  "file": "Textcodec/Punycode",
  "def": "encCps",
  "old": "if h ≠ 0 then [45] else []",
  "new": "[45]",
  "claim": "delimiter only after ASCII characters"
 },
 {
  "file": "Textcodec/Punycode",
  "def": "encode",
  "old": "some (.success, s ++ [45])",
  "new": "some (.success, s)",
  "claim": "all-ASCII text ends in the delimiter"
 },
 {
  "file": "Textcodec/Punycode",
  "def": "encode",
  "old": "if v.1 = false then some (.badInput, [])\n    else ",
  "new": "",
  "claim": "text that is not UTF-8 is refused"
 },
 {
  "file": "Textcodec/Punycode",
  "def": "decVar",
  "old": "if d < t then",
  "new": "if d ≤ t then",
  "claim": "last digit"
 },
 {
  "file": "Textcodec/Punycode",
  "def": "decVar",
  "old": "w > (M - 1) / (36 - t)",
  "new": "w > (M - 1) / 36",
  "claim": "weight overflow check"
 },
 {
  "file": "Textcodec/Punycode",
  "def": "decVar",
  "old": "d > (M - 1 - i) / w",
  "new": "d ≥ (M - 1 - i) / w",
  "claim": "value overflow check"
 },
 {
  "file": "Textcodec/Punycode",
  "def": "decLoop",
  "old": "⟨i + 1, n, bias",
  "new": "⟨i, n, bias",
  "claim": "next position"
 },
 {
  "file": "Textcodec/Punycode",
  "def": "decLoop",
  "old": "s.l.take i ++ bytes :: s.l.drop i",
  "new": "s.l ++ [bytes]",
  "claim": "insert position"
 },
 {
  "file": "Textcodec/Punycode",
  "def": "decLoop",
  "old": "(s.i == 0)",
  "new": "(s.n == 128)",
  "claim": "first delta in the decoder"
 },
 {
  "file": "Textcodec/Punycode",
  "def": "decLoop",
  "old": "adapt (i - s.i)",
  "new": "adapt i",
  "claim": "delta of the bias in the decoder"
 },
 {
  "file": "Textcodec/Punycode",
  "def": "decode",
  "old": "⟨0, 128, 72, (cut s).1",
  "new": "⟨0, 128, 71, (cut s).1",
  "claim": "initial bias"
 },
 {
  "file": "Textcodec/Punycode",
  "def": "cut",
  "old": "if 45 ∈ s then ((s.reverse.dropWhile (· ≠ 45)).tail.reverse, (s.reverse.takeWhile (· ≠ 45)).reverse)",
  "new": "if 45 ∈ s then (s.takeWhile (· ≠ 45), (s.dropWhile (· ≠ 45)).tail)",
  "claim": "last delimiter, not the first"
 }
]