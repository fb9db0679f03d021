[
{
"file": "Verify/Model",
"def": "alnum",
"old": "[48, 49, 50,",
"new": "[49, 50,",
"claim": "the digit 0 is refused"
},
{
"file": "Verify/Model",
"def": "inLocal",
"old": "[46, 39, 42,",
"new": "[46, 34, 39, 42,",
"claim": "a quote is accepted in the local part"
},
{
"file": "Verify/Model",
"def": "inLabel",
"old": "[45]",
"new": "[45, 95]",
"claim": "underscores accepted in domain names"
},
{
"file": "Verify/Model",
"def": "inName",
"old": "32, 9]",
"new": "32, 9, 44]",
"claim": "commas accepted in display names without quotes"
},
{
"file": "Verify/Model",
"def": "inQuoted",
"old": "[40, 41, 60,",
"new": "[92, 40, 41, 60,",
"claim": "backslashes accepted in quotes"
},
{
"file": "Verify/Model",
"def": "isCharset",
"old": "s.all fun c",
"new": "s.any fun c",
"claim": "one good character is enough"
},
{
"file": "Verify/Model",
"def": "countLoop",
"old": "else if c = ch ∧ on = false then",
"new": "else if c = ch then",
"claim": "brackets in quotes are counted"
},
{
"file": "Verify/Model",
"def": "displayName",
"old": "!bad quoted inQuoted && ",
"new": "",
"claim": "anything goes in quotes"
},
{
"file": "Verify/Model",
"def": "displayName",
"old": "!bad quoted inQuoted && !bad unquoted inName",
"new": "!bad quoted inName && !bad unquoted inName",
"claim": "symbols in quotes refused"
},
{
"file": "Verify/Model",
"def": "displayName",
"old": "Str.quoted true disp 34 92).bind fun quoted =>\n    (Str.quoted false",
"new": "Str.quoted false disp 34 92).bind fun quoted =>\n    (Str.quoted true",
"claim": "quoted and unquoted swapped"
},
{
"file": "Verify/Model",
"def": "localPart",
"old": "s.length > 64",
"new": "s.length > 65",
"claim": "local parts of 65 characters"
},
{
"file": "Verify/Model",
"def": "localPart",
"old": "if a = 46 ∨ z = 46",
"new": "if a = 46",
"claim": "dots at the end"
},
{
"file": "Verify/Model",
"def": "localPart",
"old": "else if a = 45 then false",
"new": "else if z = 45 then false",
"claim": "hyphen at the end refused, at the start accepted"
},
{
"file": "Verify/Model",
"def": "dnsLabel",
"old": "s.length > 63",
"new": "s.length ≥ 63",
"claim": "labels of 63 characters refused"
},
{
"file": "Verify/Model",
"def": "dnsLabel",
"old": "if a = 45 ∨ z = 45",
"new": "if a = 45 ∧ z = 45",
"claim": "hyphens at one end"
},
{
"file": "Verify/Model",
"def": "dnsLabel",
"old": "if s.length = 0 ∨ s.length > 63",
"new": "if s.length > 63",
"claim": "empty labels read before the string"
},
{
"file": "Verify/Model",
"def": "labels",
"old": "if b then labels ls else some false",
"new": "if b then some true else labels ls",
"claim": "one good label is enough"
},
{
"file": "Verify/Model",
"def": "domain",
"old": "s.length > 253",
"new": "s.length > 255",
"claim": "domains of 255 characters"
},
{
"file": "Verify/Model",
"def": "bare",
"old": "ps.length ≠ 2",
"new": "ps.length < 2",
"claim": "more than one at sign: the rest ignored"
},
{
"file": "Verify/Model",
"def": "bare",
"old": "ps[0]?.bind fun l => ps[1]?.bind fun d",
"new": "ps[1]?.bind fun l => ps[0]?.bind fun d",
"claim": "local part and domain swapped"
},
{
"file": "Verify/Model",
"def": "email",
"old": "s.length > 254",
"new": "s.length > 256",
"claim": "addresses of 256 characters"
},
{
"file": "Verify/Model",
"def": "email",
"old": "s.length < 3",
"new": "s.length < 4",
"claim": "a@b refused"
},
{
"file": "Verify/Model",
"def": "email",
"old": "∨ o > 1 then",
"new": "∨ o > 2 then",
"claim": "two pairs of brackets"
},
{
"file": "Verify/Model",
"def": "email",
"old": "if z ≠ 62 then some false",
"new": "if z ≠ 60 then some false",
"claim": "the last character must be an opening bracket"
},
{
"file": "Verify/Model",
"def": "email",
"old": "bare ((Str.bracketed true s",
"new": "bare ((Str.bracketed false s",
"claim": "the display name is checked as the address"
},
{
"file": "Verify/Model",
"def": "delimiter",
"old": "else if semis > 0 then some 59 else some 44",
"new": "else some 44",
"claim": "semicolons not detected"
},
{
"file": "Verify/Model",
"def": "each",
"old": "let t := Str.trim a",
"new": "let t := a",
"claim": "not trimmed"
},
{
"file": "Verify/Model",
"def": "each",
"old": "if b then each as else some false",
"new": "if b then some true else some false",
"claim": "only the first address is checked"
},
{
"file": "Verify/Model",
"def": "list",
"old": "[13, 10, 12, 11]",
"new": "[13, 12, 11]",
"claim": "line feeds accepted around addresses"
},
{
"file": "Verify/Model",
"def": "list",
"old": "r.1 > 100",
"new": "r.1 > 101",
"claim": "101 addresses"
},
{
"file": "Verify/Model",
"def": "list",
"old": "(d = 59 ∧ semis = 0) then email s",
"new": "(d = 59 ∧ semis = 0) then some false",
"claim": "one address with semicolons refused"
},
{
"file": "Verify/Model",
"def": "list",
"old": "Str.explodeQ d 34 92 0 s",
"new": "Str.explodeQ d 0 0 0 s",
"claim": "delimiters in quotes split"
}
]