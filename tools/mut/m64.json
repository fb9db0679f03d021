[
{
"file": "TableJson/Model",
"def": "writeJson",
"old": "| none => some none",
"new": "| none => some (some [91, 93])",
"claim": "a table with an unnamed column is not written",
"tightened": [
"Verif.TableJson.write_refused"
]
},
{
"file": "LogTags/Model",
"def": "tagsLt",
"old": "else t - 1",
"new": "else t",
"claim": "The set below a tag does not have the tag itself"
},
{
"file": "LogTags/Model",
"def": "tagsLt",
"old": "Bithacks.roundDown64 tag\n  if t = 0 then 0 else t - 1",
"new": "tag\n  if t = 0 then 0 else t - 1",
"claim": "A number that is no tag counts as its highest bit"
},
{
"file": "LogTags/Model",
"def": "tagsLte",
"old": "(t - 1) ||| t",
"new": "t",
"claim": "The set up to a tag has the tags below it"
},
{
"file": "LogTags/Model",
"def": "tagsLte",
"old": "(t - 1) ||| t",
"new": "t - 1",
"claim": "The set up to a tag has the tag itself"
},
{
"file": "LogTags/Model",
"def": "tagsGt",
"old": "tagsLte tag ^^^",
"new": "tagsLt tag ^^^",
"claim": "The set above a tag does not have the tag itself"
},
{
"file": "LogTags/Model",
"def": "tagsGte",
"old": "(2 ^ 64 - 1)",
"new": "(2 ^ 63 - 1)",
"claim": "The set from a tag on has the highest tag"
},
{
"file": "LogTags/Model",
"def": "setName",
"old": "if Bithacks.isPow64 tag = false then some (l, .badTag)",
"new": "if tag = 0 then some (l, .badTag)",
"claim": "A number that is no tag is refused"
},
{
"file": "LogTags/Model",
"def": "setName",
"old": "| some o => o != tag\n    | none => false",
"new": "| some _ => true\n    | none => false",
"claim": "A tag may be given its own name again"
},
{
"file": "LogTags/Model",
"def": "setName",
"old": "| some o => o != tag\n    | none => false",
"new": "| some _ => false\n    | none => false",
"claim": "A name that another tag has is refused"
},
{
"file": "LogTags/Model",
"def": "setName",
"old": "aget (nmeq true) l.toTag name with",
"new": "aget (nmeq false) l.toTag name with",
"claim": "A name that another tag has in another case is refused"
},
{
"file": "LogTags/Model",
"def": "setName",
"old": "| some o => adel (nmeq true) l.toTag o",
"new": "| some _ => l.toTag",
"claim": "The old name of a tag does not lead to it any more"
},
{
"file": "LogTags/Model",
"def": "setName",
"old": "aput ideq l.toName tag name",
"new": "l.toName",
"claim": "A tag has the name last given to it"
},
{
"file": "LogTags/Model",
"def": "setName",
"old": "aput (nmeq true) toTag name tag",
"new": "aput (nmeq true) toTag name 1",
"claim": "A name leads back to its tag"
},
{
"file": "LogTags/Model",
"def": "setName",
"old": "aput (nmeq true) toTag name tag",
"new": "toTag",
"claim": "A name leads back to its tag"
},
{
"file": "LogTags/Model",
"def": "setName",
"old": "| some _ => none\n",
"new": "| some _ => some (l, .ok)\n",
"claim": "Clearing a name reads freed memory"
},
{
"file": "LogTags/Model",
"def": "getTag",
"old": "(aget (nmeq true) l.toTag name).getD 0",
"new": "(aget (nmeq true) l.toTag name).getD 1",
"claim": "A name that no tag has gives 0"
},
{
"file": "LogTags/Model",
"def": "isEnd",
"old": "c == 13 || c == 10",
"new": "c == 10",
"claim": "Carriage returns end lines"
},
{
"file": "LogTags/Model",
"def": "linesGo",
"old": "((msg.dropWhile fun c => !isEnd c).dropWhile isEnd)",
"new": "((msg.dropWhile fun c => !isEnd c).drop 1)",
"claim": "Line ends that follow each other count as one"
},
{
"file": "LogTags/Model",
"def": "linesGo",
"old": "msg.takeWhile (fun c => !isEnd c) ::",
"new": "msg.takeWhile isEnd ::",
"claim": "A message is taken apart into its lines"
},
{
"file": "LogTags/Model",
"def": "memWrite",
"old": "m.buf.length > m.max then m",
"new": "m.buf.length ≥ m.max then m",
"claim": "A message is kept if the size is not exceeded before it"
},
{
"file": "LogTags/Model",
"def": "memWrite",
"old": "m.buf.length > m.max then m",
"new": "m.buf.length + msg.length > m.max then m",
"claim": "The message that exceeds the size is kept whole"
},
{
"file": "LogTags/Model",
"def": "memWrite",
"old": "m.buf ++ msg",
"new": "(m.buf ++ msg).take m.max",
"claim": "Messages are not cut"
},
{
"file": "LogTags/Model",
"def": "memWrite",
"old": "m.buf ++ msg",
"new": "msg ++ m.buf",
"claim": "Messages are kept in order"
},
{
"file": "LogTags/Model",
"def": "memCheck",
"old": "elapsed > m.ms",
"new": "elapsed ≥ m.ms",
"claim": "A module lasts for its time"
},
{
"file": "LogTags/Model",
"def": "addMem",
"old": "(if s > (2 ^ 64 - 1) / 1000 then (2 ^ 64 - 1) / 1000 else s) * 1000",
"new": "s * 1000",
"claim": "A time that is too long lasts as long as can be counted"
}
]