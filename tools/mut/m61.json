[
{
"file": "Codepage/Model",
"def": "Res.isError",
"old": "| .success | .handled => false",
"new": "| .success => false",
"claim": "encoding writes what page and handler prescribe"
},
{
"file": "Codepage/Model",
"def": "Res.isError",
"old": "| _ => true",
"new": "| .fail => false\n  | _ => true",
"claim": "encoding writes what page and handler prescribe"
},
{
"file": "Codepage/Model",
"def": "cpReplace",
"old": "63",
"new": "0x1A",
"claim": "encoding writes what page and handler prescribe"
},
{
"file": "Codepage/Model",
"def": "utf8Replace",
"old": "[0xFF, 0xFD]",
"new": "[0xEF, 0xBF, 0xBD]",
"claim": "documents the replacement (the correct one)"
},
{
"file": "Codepage/Model",
"def": "utf8Replace",
"old": "[0xFF, 0xFD]",
"new": "[0xFF]",
"claim": "decoding writes what page and handler prescribe"
},
{
"file": "Codepage/Model",
"def": "findByte",
"old": "p.2 == u",
"new": "p.1 == u",
"claim": "encoding writes what page and handler prescribe"
},
{
"file": "Codepage/Model",
"def": "findByte",
"old": ".map (·.1)",
"new": ".map (·.2)",
"claim": "encoding writes what page and handler prescribe"
},
{
"file": "Codepage/Model",
"def": "findByte",
"old": "p.2 == u",
"new": "p.2 ≥ u",
"claim": "encoding writes what page and handler prescribe"
},
{
"file": "Codepage/Model",
"def": "findCode",
"old": "p.1 == b",
"new": "p.2 == b",
"claim": "decoding writes what page and handler prescribe"
},
{
"file": "Codepage/Model",
"def": "findCode",
"old": ".map (·.2)",
"new": ".map (·.1)",
"claim": "decoding writes what page and handler prescribe"
},
{
"file": "Codepage/Model",
"def": "encodeLoop",
"old": "if c = 0 ∨ res.isError then",
"new": "if c = 0 then",
"claim": "encoding writes what page and handler prescribe"
},
{
"file": "Codepage/Model",
"def": "encodeLoop",
"old": "encodeLoop t eh fuel next res (out ++ [UInt8.ofNat b])",
"new": "encodeLoop t eh fuel next res (UInt8.ofNat b :: out)",
"claim": "encoding writes what page and handler prescribe"
},
{
"file": "Codepage/Model",
"def": "encodeLoop",
"old": "encodeLoop t eh fuel next res (out ++ [UInt8.ofNat b])",
"new": "encodeLoop t eh fuel next .success (out ++ [UInt8.ofNat b])",
"claim": "encoding writes what page and handler prescribe"
},
{
"file": "Codepage/Model",
"def": "encodeLoop",
"old": "encodeLoop t eh fuel next res (out ++ [UInt8.ofNat b])",
"new": "encodeLoop t eh fuel (s.drop 1) res (out ++ [UInt8.ofNat b])",
"claim": "encoding writes what page and handler prescribe"
},
{
"file": "Codepage/Model",
"def": "encodeLoop",
"old": "encodeLoop t eh fuel next res (out ++ [UInt8.ofNat b])",
"new": "encodeLoop t eh fuel next res (out ++ [UInt8.ofNat u])",
"claim": "encoding writes what page and handler prescribe"
},
{
"file": "Codepage/Model",
"def": "encodeLoop",
"old": "| .fail => encodeLoop t eh fuel next .fail out",
"new": "| .fail => encodeLoop t eh fuel next .handled out",
"claim": "encoding writes what page and handler prescribe"
},
{
"file": "Codepage/Model",
"def": "encodeLoop",
"old": "| .fail => encodeLoop t eh fuel next .fail out",
"new": "| .fail => encodeLoop t eh fuel next .badInput out",
"claim": "encoding writes what page and handler prescribe"
},
{
"file": "Codepage/Model",
"def": "encodeLoop",
"old": "| .replace => encodeLoop t eh fuel next .handled (out ++ [cpReplace])",
"new": "| .replace => encodeLoop t eh fuel next res (out ++ [cpReplace])",
"claim": "encoding writes what page and handler prescribe"
},
{
"file": "Codepage/Model",
"def": "encodeLoop",
"old": "| .replace => encodeLoop t eh fuel next .handled (out ++ [cpReplace])",
"new": "| .replace => encodeLoop t eh fuel next .handled out",
"claim": "encoding writes what page and handler prescribe"
},
{
"file": "Codepage/Model",
"def": "encodeLoop",
"old": "| .ignore => encodeLoop t eh fuel next .handled out",
"new": "| .ignore => encodeLoop t eh fuel next .success out",
"claim": "encoding writes what page and handler prescribe"
},
{
"file": "Codepage/Model",
"def": "encodeLoop",
"old": "| .ignore => encodeLoop t eh fuel next .handled out",
"new": "| .ignore => encodeLoop t eh fuel next .handled (out ++ [cpReplace])",
"claim": "encoding writes what page and handler prescribe"
},
{
"file": "Codepage/Model",
"def": "encodeLoop",
"old": "| .error _ => none",
"new": "| .error _ => some (.handled, out)",
"claim": "an invalid text does not end the conversion quietly"
},
{
"file": "Codepage/Model",
"def": "encodeCpMap",
"old": ".success []",
"new": ".handled []",
"claim": "encoding writes what page and handler prescribe"
},
{
"file": "Codepage/Model",
"def": "chars",
"old": "if c = 0 then some []",
"new": "if c = 0 then some [0]",
"claim": "decoding writes what page and handler prescribe"
},
{
"file": "Codepage/Model",
"def": "chars",
"old": "(chars s).map (c :: ·)",
"new": "chars s",
"claim": "decoding writes what page and handler prescribe"
},
{
"file": "Codepage/Model",
"def": "decodeByte",
"old": "fromCp 16 u",
"new": "fromCp 2 u",
"claim": "decoding writes what page and handler prescribe"
},
{
"file": "Codepage/Model",
"def": "decodeByte",
"old": "fromCp 16 u",
"new": "fromCp 16 c.toNat",
"claim": "decoding writes what page and handler prescribe"
},
{
"file": "Codepage/Model",
"def": "decodeLoop",
"old": "| [], res, out => (res, out)",
"new": "| [], _, out => (.success, out)",
"claim": "decoding writes what page and handler prescribe"
},
{
"file": "Codepage/Model",
"def": "decodeLoop",
"old": "decodeLoop t eh s res (out ++ bytes)",
"new": "decodeLoop t eh s .success (out ++ bytes)",
"claim": "decoding writes what page and handler prescribe"
},
{
"file": "Codepage/Model",
"def": "decodeLoop",
"old": "decodeLoop t eh s res (out ++ bytes)",
"new": "decodeLoop t eh s res (bytes ++ out)",
"claim": "decoding writes what page and handler prescribe"
},
{
"file": "Codepage/Model",
"def": "decodeLoop",
"old": "| .fail => (.fail, out)",
"new": "| .fail => decodeLoop t eh s .fail out",
"claim": "decoding writes what page and handler prescribe"
},
{
"file": "Codepage/Model",
"def": "decodeLoop",
"old": "| .fail => (.fail, out)",
"new": "| .fail => (.badInput, out)",
"claim": "decoding writes what page and handler prescribe"
},
{
"file": "Codepage/Model",
"def": "decodeLoop",
"old": "| .fail => (.fail, out)",
"new": "| .fail => (.handled, out)",
"claim": "decoding writes what page and handler prescribe"
},
{
"file": "Codepage/Model",
"def": "decodeLoop",
"old": "| .replace => decodeLoop t eh s .handled (out ++ utf8Replace)",
"new": "| .replace => decodeLoop t eh s .handled (out ++ [cpReplace])",
"claim": "decoding writes what page and handler prescribe"
},
{
"file": "Codepage/Model",
"def": "decodeLoop",
"old": "| .replace => decodeLoop t eh s .handled (out ++ utf8Replace)",
"new": "| .replace => decodeLoop t eh s res (out ++ utf8Replace)",
"claim": "decoding writes what page and handler prescribe"
},
{
"file": "Codepage/Model",
"def": "decodeLoop",
"old": "| .ignore => decodeLoop t eh s .handled out",
"new": "| .ignore => decodeLoop t eh s .handled (out ++ utf8Replace)",
"claim": "decoding writes what page and handler prescribe"
},
{
"file": "Codepage/Model",
"def": "decodeLoop",
"old": "| .ignore => decodeLoop t eh s .handled out",
"new": "| .ignore => (.handled, out)",
"claim": "decoding writes what page and handler prescribe"
},
{
"file": "Codepage/Model",
"def": "utf8Loop",
"old": "if c = 0 then some (res, out)",
"new": "if c = 0 then some (.success, out)",
"claim": "UTF-8 texts are cleaned as documented"
},
{
"file": "Codepage/Model",
"def": "utf8Loop",
"old": "utf8Loop enc fl fuel e res (out ++ s.take (s.length - e.length))",
"new": "utf8Loop enc fl fuel e res (out ++ s)",
"claim": "UTF-8 texts are cleaned as documented"
},
{
"file": "Codepage/Model",
"def": "utf8Loop",
"old": "if fl then some (.fail, out)",
"new": "if fl then some (.handled, out)",
"claim": "UTF-8 texts are cleaned as documented"
},
{
"file": "Codepage/Model",
"def": "utf8Loop",
"old": "(nextChr e).bind",
"new": "(nextChr s).bind",
"claim": "UTF-8 texts are cleaned as documented"
},
{
"file": "Codepage/Model",
"def": "utf8Loop",
"old": "utf8Loop enc fl fuel e' .handled",
"new": "utf8Loop enc fl fuel e' res",
"claim": "UTF-8 texts are cleaned as documented"
},
{
"file": "Codepage/Model",
"def": "utf8Loop",
"old": "(out ++ s.take (s.length - e.length) ++ (if enc",
"new": "(out ++ (if enc",
"claim": "UTF-8 texts are cleaned as documented"
},
{
"file": "Codepage/Model",
"def": "utf8Loop",
"old": "if enc then [cpReplace] else utf8Replace",
"new": "if enc then utf8Replace else [cpReplace]",
"claim": "UTF-8 texts are cleaned as documented"
},
{
"file": "Codepage/Model",
"def": "utf8ToUtf8",
"old": "if v.1 then .success else .handled",
"new": "if v.1 then .handled else .success",
"claim": "UTF-8 texts are cleaned as documented"
},
{
"file": "Codepage/Model",
"def": "utf8ToUtf8",
"old": "eh == .fail",
"new": "eh == .replace",
"claim": "UTF-8 texts are cleaned as documented"
},
{
"file": "Codepage/Model",
"def": "encode",
"old": "utf8ToUtf8 true eh s",
"new": "utf8ToUtf8 false eh s",
"claim": "UTF-8 texts are cleaned as documented"
},
{
"file": "Codepage/Model",
"def": "encode",
"old": "if ¬ v.1 ∧ eh = .fail then",
"new": "if ¬ v.1 then",
"claim": "shows the crash; refusing would be a repair"
},
{
"file": "Codepage/Model",
"def": "encode",
"old": "if ¬ v.1 ∧ eh = .fail then some (.badInput, [])",
"new": "if ¬ v.1 ∧ eh = .fail then some (.fail, [])",
"claim": "an invalid text is refused as bad input"
},
{
"file": "Codepage/Model",
"def": "encode",
"old": "if ¬ v.1 ∧ eh = .fail then",
"new": "if v.1 ∧ eh = .fail then",
"claim": "an invalid text is refused"
},
{
"file": "Codepage/Model",
"def": "encode",
"old": "if c = 0 then some (.success, [])",
"new": "if c = 0 then some (.fail, [])",
"claim": "encoding writes what page and handler prescribe"
},
{
"file": "Codepage/Model",
"def": "decode",
"old": "utf8ToUtf8 false eh s",
"new": "utf8ToUtf8 true eh s",
"claim": "UTF-8 texts are cleaned as documented"
},
{
"file": "Codepage/Model",
"def": "decode",
"old": "decodeCpMap (table p) eh s",
"new": "encodeCpMap (table p) eh s",
"claim": "decoding writes what page and handler prescribe"
},
{
"file": "Codepage/Model",
"def": "decode",
"old": "decodeCpMap (table p) eh s",
"new": "decodeCpMap (table p) .ignore s",
"claim": "decoding writes what page and handler prescribe"
},
{
"file": "Codepage/Model",
"def": "table",
"old": "| .cp1252 => Verif.Codepage.cp1252",
"new": "| .cp1252 => Verif.Codepage.iso8859_1",
"claim": "each page uses its own mapping"
},
{
"file": "Codepage/Model",
"def": "table",
"old": "| .iso8859_16 => Verif.Codepage.iso8859_16",
"new": "| .iso8859_16 => Verif.Codepage.iso8859_15",
"claim": "each page uses its own mapping"
},
{
"file": "Codepage/Tables",
"def": "cp1251",
"old": "(0xC4, 0x0414)",
"new": "(0xC4, 0x0415)",
"claim": "each page uses the published mapping"
},
{
"file": "Codepage/Tables",
"def": "iso8859_15",
"old": "(0xA4, 0x20AC)",
"new": "(0xA4, 0x00A4)",
"claim": "each page uses the published mapping"
}
]