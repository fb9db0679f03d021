[
{
"file": "Hexdump/Model",
"def": "digit",
"old": "k < 10",
"new": "k ≤ 10",
"claim": "digits are right"
},
{
"file": "Hexdump/Model",
"def": "digit",
"old": "55 + k",
"new": "54 + k",
"claim": "digits are right"
},
{
"file": "Hexdump/Model",
"def": "digit",
"old": "if upper then",
"new": "if !upper then",
"claim": "digits in the case asked for"
},
{
"file": "Hexdump/Model",
"def": "digs",
"old": "if n / b = 0 then [n % b]",
"new": "if n / b = 1 then [n % b]",
"claim": "numbers are right"
},
{
"file": "Hexdump/Model",
"def": "digs",
"old": "digs b f (n / b) ++ [n % b]",
"new": "(n % b) :: digs b f (n / b)",
"claim": "numbers are right"
},
{
"file": "Hexdump/Model",
"def": "uinthex",
"old": "List.replicate (width - s.length) 48 ++ s",
"new": "s",
"claim": "bytes have two digits"
},
{
"file": "Hexdump/Model",
"def": "uinthex",
"old": "s.length > width then []",
"new": "s.length ≥ width then []",
"claim": "numbers are written"
},
{
"file": "Hexdump/Model",
"def": "uinthex",
"old": "(width - s.length) 48",
"new": "(width - s.length) 32",
"claim": "numbers are filled with zeros"
},
{
"file": "Hexdump/Model",
"def": "uinthex",
"old": "print 16 upper n",
"new": "print 16 false n",
"claim": "digits in the case asked for"
},
{
"file": "Hexdump/Model",
"def": "uintJust",
"old": "(width - s.length) 48",
"new": "(width - s.length) 32",
"claim": "numbers are filled with zeros"
},
{
"file": "Hexdump/Model",
"def": "uintJust",
"old": "List.replicate (width - s.length) 48 ++ s",
"new": "s ++ List.replicate (width - s.length) 48",
"claim": "numbers are filled on the left"
},
{
"file": "Hexdump/Model",
"def": "uintJust",
"old": "print 10 false n",
"new": "print 16 false n",
"claim": "decimal numbers if asked for"
},
{
"file": "Hexdump/Model",
"def": "center",
"old": "width < str.length",
"new": "width ≤ str.length",
"claim": "titles that just fit are written"
},
{
"file": "Hexdump/Model",
"def": "center",
"old": "(width - str.length) / 2\n",
"new": "(width - str.length) / 3\n",
"claim": "titles are in the middle"
},
{
"file": "Hexdump/Model",
"def": "center",
"old": "width - str.length - lpad",
"new": "width - str.length",
"claim": "columns have their width"
},
{
"file": "Hexdump/Model",
"def": "lenSize",
"old": "if l < 4 then 4 else l",
"new": "4",
"claim": "numbers fit their column"
},
{
"file": "Hexdump/Model",
"def": "lenSize",
"old": "if l < 4 then 4 else l",
"new": "l",
"claim": "numbers have at least four digits"
},
{
"file": "Hexdump/Model",
"def": "lenSize",
"old": "if l < 4 then 4 else l",
"new": "if l > 4 then 4 else l",
"claim": "numbers fit their column"
},
{
"file": "Hexdump/Model",
"def": "lenSize",
"old": "if o.declen then (print 10",
"new": "if !o.declen then (print 10",
"claim": "numbers fit their column"
},
{
"file": "Hexdump/Model",
"def": "sepLen",
"old": "if o.nosects then 1 else 2",
"new": "if o.nosects then 2 else 1",
"claim": "no emphasis if turned off"
},
{
"file": "Hexdump/Model",
"def": "hexSize",
"old": "bpl * 3 - 1",
"new": "bpl * 3",
"claim": "the header is as wide as the lines"
},
{
"file": "Hexdump/Model",
"def": "hexSize",
"old": "if h < 3 then 3 else h",
"new": "h",
"claim": "a header fits for one byte per line"
},
{
"file": "Hexdump/Model",
"def": "hexSize",
"old": "(bpl + 7) / 8",
"new": "(bpl + 8) / 8",
"claim": "the header is as wide as the lines"
},
{
"file": "Hexdump/Model",
"def": "hexSize",
"old": "if sects > 0 then sects - 1 else sects",
"new": "sects",
"claim": "the header is as wide as the lines"
},
{
"file": "Hexdump/Model",
"def": "hexSize",
"old": "if o.nosects then h else h + sects",
"new": "h + sects",
"claim": "the header is as wide as the lines"
},
{
"file": "Hexdump/Model",
"def": "asciiSize",
"old": "bpl + 2",
"new": "bpl",
"claim": "the header is as wide as the lines"
},
{
"file": "Hexdump/Model",
"def": "eol",
"old": "if o.crlf then [13, 10] else [10]",
"new": "[10]",
"claim": "line ends as asked for"
},
{
"file": "Hexdump/Model",
"def": "eol",
"old": "if o.crlf then [13, 10] else [10]",
"new": "if o.crlf then [10, 13] else [10]",
"claim": "line ends as asked for"
},
{
"file": "Hexdump/Model",
"def": "lenCol",
"old": "if o.nolen then some [] else",
"new": "",
"claim": "no numbers if turned off"
},
{
"file": "Hexdump/Model",
"def": "lenCol",
"old": "s ++ blanks (sepLen o)",
"new": "s ++ blanks 1",
"claim": "columns are aligned"
},
{
"file": "Hexdump/Model",
"def": "asciiCol",
"old": "blanks (sepLen o) ++ s",
"new": "s",
"claim": "columns are aligned"
},
{
"file": "Hexdump/Model",
"def": "titles",
"old": "if o.declen then [76, 69, 78] else [65, 68, 68, 82]",
"new": "if o.declen then [65, 68, 68, 82] else [76, 69, 78]",
"claim": "titles name the columns"
},
{
"file": "Hexdump/Model",
"def": "titles",
"old": "pre ++ a ++ b ++ c ++ eol o",
"new": "a ++ b ++ c ++ eol o",
"claim": "each line has the prefix"
},
{
"file": "Hexdump/Model",
"def": "ruler",
"old": "(lenCol o [] len 61)",
"new": "(lenCol o [] len 45)",
"claim": "the line below the titles"
},
{
"file": "Hexdump/Model",
"def": "ruler",
"old": "pre ++ a ++ b ++ c ++ eol o",
"new": "pre ++ a ++ b ++ c",
"claim": "the line below the titles ends"
},
{
"file": "Hexdump/Model",
"def": "head",
"old": "fun b => a ++ b",
"new": "fun _ => a",
"claim": "the line below the titles"
},
{
"file": "Hexdump/Model",
"def": "head",
"old": "if o.header then",
"new": "if !o.header then",
"claim": "a header if asked for"
},
{
"file": "Hexdump/Model",
"def": "number",
"old": "if o.declen then",
"new": "if !o.declen then",
"claim": "decimal numbers if asked for"
},
{
"file": "Hexdump/Model",
"def": "hexCell",
"old": "if i ≠ 0 then",
"new": "if i ≠ 1 then",
"claim": "columns are aligned"
},
{
"file": "Hexdump/Model",
"def": "hexCell",
"old": "i % 8 = 0",
"new": "i % 8 = 7",
"claim": "emphasis after eight bytes"
},
{
"file": "Hexdump/Model",
"def": "hexCell",
"old": "i % 8 = 0",
"new": "(off + i) % 8 = 0",
"claim": "emphasis after eight bytes of a line"
},
{
"file": "Hexdump/Model",
"def": "hexCell",
"old": "blanks (sepLen o) else blanks 1",
"new": "blanks 2 else blanks 1",
"claim": "no emphasis if turned off"
},
{
"file": "Hexdump/Model",
"def": "hexCell",
"old": "d[off + i]?",
"new": "d[i]?",
"claim": "each line shows the next bytes"
},
{
"file": "Hexdump/Model",
"def": "hexCell",
"old": "| none => blanks 2",
"new": "| none => blanks 1",
"claim": "columns are aligned"
},
{
"file": "Hexdump/Model",
"def": "hexCell",
"old": "| none => blanks 2",
"new": "| none => []",
"claim": "columns are aligned"
},
{
"file": "Hexdump/Model",
"def": "asciiCell",
"old": "b ≥ 33 ∧ b < 127",
"new": "b ≥ 33 ∧ b ≤ 127",
"claim": "DEL is not printable"
},
{
"file": "Hexdump/Model",
"def": "asciiCell",
"old": "∨ b = 32",
"new": "∨ b = 9",
"claim": "blanks are shown as blanks, tabs are not"
},
{
"file": "Hexdump/Model",
"def": "asciiCell",
"old": "b < 127",
"new": "b < 128 ∨ b ≥ 160",
"claim": "only printable bytes are shown"
},
{
"file": "Hexdump/Model",
"def": "asciiCell",
"old": "| none => 32",
"new": "| none => 46",
"claim": "no dots behind the data"
},
{
"file": "Hexdump/Model",
"def": "row",
"old": "number o len off",
"new": "number o len (off + bpl)",
"claim": "the number of the bytes before the line"
},
{
"file": "Hexdump/Model",
"def": "row",
"old": "number o len off",
"new": "number o len (off / bpl)",
"claim": "the number of the bytes before the line"
},
{
"file": "Hexdump/Model",
"def": "row",
"old": "if o.noascii then [] else",
"new": "",
"claim": "no text column if turned off"
},
{
"file": "Hexdump/Model",
"def": "row",
"old": "(List.range bpl).flatMap",
"new": "(List.range (min bpl (d.length - off))).flatMap",
"claim": "columns are aligned in the last line"
},
{
"file": "Hexdump/Model",
"def": "row",
"old": "(List.range bpl).map",
"new": "(List.range (min bpl (d.length - off))).map",
"claim": "the text column has its width in the last line"
},
{
"file": "Hexdump/Model",
"def": "rows",
"old": "off < d.length",
"new": "off + bpl ≤ d.length",
"claim": "the last line is not dropped"
},
{
"file": "Hexdump/Model",
"def": "rows",
"old": "off < d.length",
"new": "off ≤ d.length",
"claim": "no line without bytes"
},
{
"file": "Hexdump/Model",
"def": "rows",
"old": "f (off + bpl)",
"new": "f (off + 16)",
"claim": "each line shows the next bytes"
},
{
"file": "Hexdump/Model",
"def": "hexdump",
"old": "if bytesPerLine = 0 then 16 else bytesPerLine",
"new": "if bytesPerLine = 0 then 8 else bytesPerLine",
"claim": "16 bytes per line unless said otherwise"
},
{
"file": "Hexdump/Model",
"def": "hexdump",
"old": "pre ++ number o len d.length",
"new": "number o len d.length",
"claim": "each line has the prefix"
},
{
"file": "Hexdump/Model",
"def": "hexdump",
"old": "(if o.nolen then [] else pre ++ number o len d.length)",
"new": "[]",
"claim": "the last line is the number of all bytes"
}
]