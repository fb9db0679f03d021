[
{
"file": "LogTags/Model",
"def": "trimEnd",
"old": "(b.reverse.dropWhile Chr.isSpace).reverse",
"new": "b",
"claim": "White space at the end of a line is taken away"
},
{
"file": "LogTags/Model",
"def": "trimEnd",
"old": "(b.reverse.dropWhile Chr.isSpace).reverse",
"new": "b.dropWhile Chr.isSpace",
"claim": "White space at the end of a line is taken away (start instead)"
},
{
"file": "LogTags/Model",
"def": "fmt",
"old": "trimEnd (time ++ tagPart l pad tag ++ pre ++ ln) ++ ending",
"new": "trimEnd (time ++ tagPart l pad tag ++ pre ++ ln ++ ending)",
"claim": "Every line written has its line ending"
},
{
"file": "LogTags/Model",
"def": "passOn",
"old": "(m :: r.1, true)",
"new": "(m :: r.1, r.2)",
"claim": "Modules that have expired are removed"
},
{
"file": "LogTags/Model",
"def": "passOn",
"old": "if m.accepts = false then (m :: r.1, r.2)\n",
"new": "if m.accepts = false then (m :: ms, r.2)\n",
"claim": "A filter of one module does not keep a line from the others"
},
{
"file": "LogTags/Model",
"def": "passOn",
"old": "if m.tags &&& tag = 0",
"new": "if m.tags ||| tag = 0",
"claim": "A module gets only messages with tags it accepts"
},
{
"file": "LogTags/Model",
"def": "passLines",
"old": "s.2 || (passOn tag b s.1).2",
"new": "(passOn tag b s.1).2 && s.2",
"claim": "Modules that have expired are removed"
},
{
"file": "LogTags/Model",
"def": "write",
"old": "if r.2 then r.1.filter (·.alive) else r.1",
"new": "r.1.filter (·.alive)",
"claim": "Without an expired module that accepts the tag all modules stay"
},
{
"file": "LogTags/Model",
"def": "write",
"old": "(ms, .badTag)",
"new": "(ms, .ok)",
"claim": "A number that is no tag is refused"
},
{
"file": "LogTags/Model",
"def": "tagUsed",
"old": "ms.any fun m",
"new": "ms.all fun m",
"claim": "A module gets the message though another does not accept its tag"
}
]