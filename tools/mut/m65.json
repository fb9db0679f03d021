[
{
"file": "LogTags/Model",
"def": "setName",
"old": "if name.length > l.width then name.length else l.width",
"new": "l.width",
"claim": "Padded names take the room of the longest one"
},
{
"file": "LogTags/Model",
"def": "setName",
"old": "if name.length > l.width then name.length else l.width",
"new": "name.length",
"claim": "Padded names take the room of the longest one (last instead)"
},
{
"file": "LogTags/Model",
"def": "setName",
"old": "if 0 ≥ l.width then longest toName else l.width",
"new": "0",
"claim": "Padded names take the room of the longest one (forgotten)"
},
{
"file": "LogTags/Model",
"def": "tagPart",
"old": "List.replicate (l.width - name.length) 32",
"new": "List.replicate l.width 32",
"claim": "Padded names take the same room"
},
{
"file": "LogTags/Model",
"def": "tagPart",
"old": "decide (name.length < l.width)",
"new": "decide (name.length + 1 < l.width)",
"claim": "Padded names take the same room (off by one)"
},
{
"file": "LogTags/Model",
"def": "getName",
"old": "aget ideq l.toName tag",
"new": "(aget ideq l.toName tag).map (·.map Chr.toLower)",
"claim": "A tag has the name last given to it"
}
]