[
{
"file": "Tls/Model",
"def": "baseDomain",
"old": "if l.length = 2 then 3 else 2",
"new": "if l.length = 2 then 2 else 2",
"claim": "country domains keep three labels"
},
{
"file": "Tls/Model",
"def": "baseDomain",
"old": "if l.length = 2 then 3 else 2",
"new": "if l.length = 3 then 3 else 2",
"claim": "only two-letter top labels keep three labels"
},
{
"file": "Tls/Model",
"def": "baseDomain",
"old": "strs.drop (strs.length - sects)",
"new": "strs.take sects",
"claim": "base domain is the last labels"
},
{
"file": "Tls/Model",
"def": "baseDomain",
"old": "if sects ≥ strs.length then",
"new": "if sects ≥ strs.length + 1 then",
"claim": "a name of just enough labels is itself"
},
{
"file": "Tls/Model",
"def": "baseDomain",
"old": "some (true, cpy256 out)",
"new": "some (true, cpy256 host)",
"claim": "base domain is cut from the name"
},
{
"file": "Tls/Model",
"def": "partsLoop",
"old": "| 0 => some true",
"new": "| 0 => some false",
"claim": "a matching wildcard is accepted"
},
{
"file": "Tls/Model",
"def": "partsLoop",
"old": "if eq true n h = false",
"new": "if eq false n h = false",
"claim": "labels compare without case"
},
{
"file": "Tls/Model",
"def": "partsLoop",
"old": "else partsLoop hp np i",
"new": "else some true",
"claim": "every label after the star is compared"
},
{
"file": "Tls/Model",
"def": "partsLoop",
"old": "(hp[i + 1]?)",
"new": "(hp[i]?)",
"claim": "labels are compared in step"
},
{
"file": "Tls/Model",
"def": "matchWildcard",
"old": "else if eqMaxInt false name [42, 46] 2 = false then some false\n",
"new": "",
"claim": "only names that start with a star are wildcards"
},
{
"file": "Tls/Model",
"def": "matchWildcard",
"old": "name [42, 46] 2",
"new": "name [42, 46] 1",
"claim": "star must be a whole label"
},
{
"file": "Tls/Model",
"def": "matchWildcard",
"old": "    else if multi = false ∧ hp.length ≠ np.length then some false\n",
"new": "",
"claim": "the star stands for one label"
},
{
"file": "Tls/Model",
"def": "matchWildcard",
"old": "partsLoop hp np (np.length - 1)",
"new": "partsLoop hp np (np.length - 2)",
"claim": "all labels after the star are compared"
},
{
"file": "Tls/Model",
"def": "matchWildcard",
"old": "hp.length < np.length",
"new": "hp.length < np.length - 1",
"claim": "no read past the labels of the host"
},
{
"file": "Tls/Model",
"def": "hostMatch",
"old": "  else if eq true host name then some true\n",
"new": "",
"claim": "an equal name is accepted"
},
{
"file": "Tls/Model",
"def": "hostMatch",
"old": "else if eq true host name then",
"new": "else if eq false host name then",
"claim": "names compare without case"
},
{
"file": "Tls/Model",
"def": "hostMatch",
"old": "if fl.wildcard then matchWildcard",
"new": "if true then matchWildcard",
"claim": "wildcards only when allowed"
},
{
"file": "Tls/Model",
"def": "hostMatch",
"old": "if w then some true\n",
"new": "if w then some false\n",
"claim": "a covered host is accepted"
},
{
"file": "Tls/Model",
"def": "hostMatch",
"old": "else if fl.fuzzy then",
"new": "else if true then",
"claim": "base domains only when allowed"
},
{
"file": "Tls/Model",
"def": "hostMatch",
"old": "some (eq true hb.2 nb.2)",
"new": "some true",
"claim": "base domains must agree"
},
{
"file": "Tls/Model",
"def": "hostMatch",
"old": "[108, 111, 99, 97, 108, 104, 111, 115, 116]",
"new": "[108, 111, 99, 97, 108]",
"claim": "localhost is the only host trusted"
},
{
"file": "Tls/Model",
"def": "hostMatch",
"old": "if fl = noFlags then some true",
"new": "if fl.wildcard = false then some true",
"claim": "a check without wildcards still checks"
},
{
"file": "Tls/Model",
"def": "hostMatch",
"old": "matchWildcard host name fl.multilevel",
"new": "matchWildcard name host fl.multilevel",
"claim": "the star is in the certificate"
},
{
"file": "Tls/Model",
"def": "sanText",
"old": "if s = [] ∨ 0 ∈ s then none",
"new": "if s = [] then none",
"claim": "names holding a zero byte are passed over"
},
{
"file": "Tls/Model",
"def": "sanText",
"old": "some (cpy256 s)",
"new": "some (s.take 64)",
"claim": "the name is compared whole up to 255 bytes"
},
{
"file": "Tls/Model",
"def": "sanText",
"old": "| .other => none",
"new": "| .other => some [42]",
"claim": "other kinds of names are passed over"
},
{
"file": "Tls/Model",
"def": "matchSans",
"old": "if m then some true else matchSans ipText host fl l",
"new": "some m",
"claim": "every name is tried"
},
{
"file": "Tls/Model",
"def": "matchSans",
"old": "| [] => some false",
"new": "| [] => some true",
"claim": "no name means no match"
},
{
"file": "Tls/Model",
"def": "matchCns",
"old": "if n = [] ∨ 0 ∈ n then matchCns",
"new": "if n = [] then matchCns",
"claim": "common names holding a zero byte are passed over"
},
{
"file": "Tls/Model",
"def": "matchCns",
"old": "if m then some true else matchCns host fl l",
"new": "if m then some true else some false",
"claim": "every common name is tried"
},
{
"file": "Tls/Model",
"def": "verifyHost",
"old": "(if fl.san then matchSans",
"new": "(if true then matchSans",
"claim": "alternative names only when asked for"
},
{
"file": "Tls/Model",
"def": "verifyHost",
"old": "if fl.cn then matchCns",
"new": "if !a then matchCns",
"claim": "common names only when asked for"
},
{
"file": "Tls/Model",
"def": "verifyHost",
"old": "some b",
"new": "some (a && b)",
"claim": "a common name is enough"
}
]