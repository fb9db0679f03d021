[
 {
  "file": "Decimal/Text",
  "def": "toStr",
  "old": "let sg : List UInt8 := if d.num < 0 then [45] else []",
  "new": "let sg : List UInt8 := if d.num ≤ 0 then [45] else []",
  "claim": "sign only for negative numbers"
 },
 {
  "file": "Decimal/Text",
  "def": "toStr",
  "old": "if d.nd ≥ countDigits num then some [48]",
  "new": "if d.nd > countDigits num then some [48]",
  "claim": "leading zero (harmless variant expected to survive or fail)"
 },
 {
  "file": "Decimal/Text",
  "def": "toStr",
  "old": "decPad d.nd (num % e)",
  "new": "decStr (num % e)",
  "claim": "zeros after the point are kept"
 },
 {
  "file": "Decimal/Text",
  "def": "toStr",
  "old": "decPad d.nd (num % e)",
  "new": "decPad (d.nd - 1) (num % e)",
  "claim": "width of the decimals"
 },
 {
  "file": "Decimal/Text",
  "def": "toStr",
  "old": "if requiredSize d > bufLen",
  "new": "if requiredSize d ≥ bufLen",
  "claim": "a buffer of just the needed size is enough"
 },
 {
  "file": "Decimal/Text",
  "def": "toStr",
  "old": "if d.nd = 0 then some (some (sg ++ int))",
  "new": "if d.nd ≤ 1 then some (some (sg ++ int))",
  "claim": "one decimal is written"
 },
 {
  "file": "Decimal/Text",
  "def": "toStr",
  "old": "sg ++ int ++ [46]",
  "new": "int ++ [46]",
  "claim": "sign of numbers with decimals"
 },
 {
  "file": "Decimal/Text",
  "def": "requiredSize",
  "old": "(if d.num < 0 then 1 else 0)",
  "new": "(if d.num < 0 then 0 else 0)",
  "claim": "room for the sign"
 },
 {
  "file": "Decimal/Text",
  "def": "requiredSize",
  "old": "nDigits + 1 + (if d.nd ≠ 0 then 1 else 0)",
  "new": "nDigits + 1 + (if d.nd ≠ 0 then 0 else 0)",
  "claim": "room for the point"
 },
 {
  "file": "Decimal/Text",
  "def": "requiredSize",
  "old": "(if d.nd > nDigits then d.nd - nDigits else 0)",
  "new": "0",
  "claim": "room for padding zeros"
 },
 {
  "file": "Decimal/Text",
  "def": "afterInt",
  "old": "let isNeg : Bool := s[0]? == some 45",
  "new": "let isNeg : Bool := false",
  "claim": "-0.5 is negative"
 },
 {
  "file": "Decimal/Text",
  "def": "afterInt",
  "old": "if isNeg ∨ num < 0 then -ad else ad",
  "new": "ad",
  "claim": "decimals of a negative number"
 },
 {
  "file": "Decimal/Text",
  "def": "afterInt",
  "old": "p[0]?.map fun c => c == 46",
  "new": "p[0]?.map fun c => c == 44",
  "claim": "the decimal point"
 },
 {
  "file": "Decimal/Text",
  "def": "afterInt",
  "old": "(len - (numRead + 1))",
  "new": "(len - numRead)",
  "claim": "text after len is not read"
 },
 {
  "file": "Decimal/Text",
  "def": "afterInt",
  "old": "expPart s len (reduce ⟨v, nd % 256⟩) tr e",
  "new": "expPart s len ⟨v, nd % 256⟩ tr e",
  "claim": "trailing zeros are dropped"
 },
 {
  "file": "Decimal/Text",
  "def": "fitDigits",
  "old": "if m.1 ≠ .overflow then",
  "new": "if m.1 = .overflow then",
  "claim": "digits that fit are kept"
 },
 {
  "file": "Decimal/Text",
  "def": "fitDigits",
  "old": "addInt64 m.2 ad",
  "new": "addInt64 num ad",
  "claim": "shift of the whole part"
 },
 {
  "file": "Decimal/Text",
  "def": "fitDigits",
  "old": "(v, nd + 1, tr)",
  "new": "(v, nd, tr)",
  "claim": "number of decimals"
 },
 {
  "file": "Decimal/Text",
  "def": "fracLoop",
  "old": "some (some (v, some t, e, tr))",
  "new": "some (some (v, some t, none, tr))",
  "claim": "end of the text"
 },
 {
  "file": "Decimal/Text",
  "def": "scale",
  "old": "if x ≥ 0 then\n      if x > 255",
  "new": "if x ≤ 0 then\n      if x > 255",
  "claim": "sign of the exponent"
 },
 {
  "file": "Decimal/Text",
  "def": "scale",
  "old": "some (reduce ⟨1, x.toNat⟩)",
  "new": "some (reduce ⟨10, x.toNat⟩)",
  "claim": "negative exponent"
 },
 {
  "file": "Decimal/Text",
  "def": "scale",
  "old": "some (if r.1 = .truncation ∨ tr = true then .truncation else .success, reduce r.2, some e)",
  "new": "some (if tr = true then .truncation else .success, reduce r.2, some e)",
  "claim": "truncation is reported"
 },
 {
  "file": "Decimal/Text",
  "def": "expPart",
  "old": "if Chr.toLower c = 101 then",
  "new": "if c = 101 then",
  "claim": "upper-case exponent"
 },
 {
  "file": "Decimal/Text",
  "def": "expPart",
  "old": "Num.toInt64Ex (e.drop 1)",
  "new": "Num.toInt64Ex e",
  "claim": "exponent starts after the letter"
 },
 {
  "file": "Decimal/Text",
  "def": "fromStr",
  "old": "if c = 46 then afterInt s len 0 s",
  "new": "if c = 46 then afterInt s len 1 s",
  "claim": "text starting with a point"
 },
 {
  "file": "Decimal/Text",
  "def": "fromStr",
  "old": "| (.overflow, _) => some (.overflow, ⟨0, 0⟩, none)",
  "new": "| (.overflow, some (num, p)) => afterInt s len num p\n      | (.overflow, _) => some (.overflow, ⟨0, 0⟩, none)",
  "claim": "overflow is reported"
 }
]