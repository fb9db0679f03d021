[
{
"file": "Tz/Model",
"def": "ruleCmp",
"old": "a.year > b.year then -1 else 1",
"new": "a.year > b.year then 1 else -1",
"claim": "the latest rule comes first"
},
{
"file": "Tz/Model",
"def": "addAdjust",
"old": "| some (true, _) => some (rules, false)",
"new": "| some (true, _) => some (rules, true)",
"claim": "a second rule for a year is refused"
},
{
"file": "Tz/Model",
"def": "addAdjust",
"old": "rules.take idx ++ r :: rules.drop idx",
"new": "rules.take idx ++ r :: rules.drop (idx + 1)",
"claim": "adding keeps the other rules"
},
{
"file": "Tz/Model",
"def": "addAdjust",
"old": "rules.take idx ++ r :: rules.drop idx",
"new": "r :: rules",
"claim": "rules stay sorted"
},
{
"file": "Tz/Model",
"def": "getRule",
"old": "some rules[idx - 1]?)",
"new": "some none)",
"claim": "years before all rules use the first rule"
},
{
"file": "Tz/Model",
"def": "getRule",
"old": "else some rules[idx]?",
"new": "else some rules[idx - 1]?",
"claim": "the last rule that began by then"
},
{
"file": "Tz/Model",
"def": "getRule",
"old": "(if rules.length = 0 then some none else some rules[idx - 1]?)",
"new": "some rules[0]?",
"claim": "years before all rules use the first rule"
},
{
"file": "Tz/Model",
"def": "changeToTime",
"old": "let d := 1 - a.wday + c.wday",
"new": "let d := 1 + a.wday - c.wday",
"claim": "weekday of the change"
},
{
"file": "Tz/Model",
"def": "changeToTime",
"old": "(if d < 1 then d + 7 else d) + 7 * (c.occur - 1)",
"new": "(if d < 1 then d + 7 else d) + 7 * c.occur",
"claim": "k-th weekday"
},
{
"file": "Tz/Model",
"def": "changeToTime",
"old": "(if d < 1 then d + 7 else d)",
"new": "(if d < 0 then d + 7 else d)",
"claim": "the first weekday of a month is day 1 to 7"
},
{
"file": "Tz/Model",
"def": "changeToTime",
"old": "(if d < 1 then d + 7 else d)",
"new": "(if d ≤ 1 then d + 7 else d)",
"claim": "a month beginning with the weekday"
},
{
"file": "Tz/Model",
"def": "changeToTime",
"old": "if isValidDay year a.month day = false then some none",
"new": "if day > 31 then some none",
"claim": "no fifth weekday in a short month"
},
{
"file": "Tz/Model",
"def": "changeToTime",
"old": "hour := c.hour, min := c.min",
"new": "hour := c.min, min := c.hour",
"claim": "time of the change"
},
{
"file": "Tz/Model",
"def": "changeToTime",
"old": "sec := c.sec,",
"new": "sec := 0,",
"claim": "second of the change"
},
{
"file": "Tz/Model",
"def": "changeToTime",
"old": "some (some (fromgm { a with day := day }).1)",
"new": "some (some (fromgm { a with day := day, hour := 0 }).1)",
"claim": "hour of the change"
},
{
"file": "Tz/Model",
"def": "isdstMid",
"old": "cur ≥ dstend - diff then false",
"new": "cur > dstend - diff then false",
"claim": "DST ends at its end"
},
{
"file": "Tz/Model",
"def": "isdstMid",
"old": "cur ≥ dstend - diff then false",
"new": "cur ≥ dstend then false",
"claim": "DST ends when the DST clock shows the end"
},
{
"file": "Tz/Model",
"def": "isdstMid",
"old": "cur ≥ dstend - diff then false",
"new": "cur ≥ dstend + diff then false",
"claim": "DST ends when the DST clock shows the end"
},
{
"file": "Tz/Model",
"def": "isdstMid",
"old": "cur < dststart ∨",
"new": "cur ≤ dststart ∨",
"claim": "DST starts at its start"
},
{
"file": "Tz/Model",
"def": "isdstMid",
"old": "cur > dstend then false",
"new": "cur ≥ dststart + diff then false",
"claim": "DST lasts to its end"
},
{
"file": "Tz/Model",
"def": "isdstMid",
"old": "isdst = false ∧ cur ≤ dstend",
"new": "cur ≤ dstend",
"claim": "a DST time in the repeated hour stays DST"
},
{
"file": "Tz/Model",
"def": "isdstMid",
"old": "isdst = false ∧ cur ≤ dstend",
"new": "isdst = true ∧ cur ≤ dstend",
"claim": "the repeated hour is told apart by the flag"
},
{
"file": "Tz/Model",
"def": "ruleIsdst",
"old": "match changeToTime r.fin l.tm.year with",
"new": "match changeToTime r.start l.tm.year with",
"claim": "the end of DST is that of the rule"
},
{
"file": "Tz/Model",
"def": "ruleIsdst",
"old": "let isdst := l.isdst = 1",
"new": "let isdst := l.isdst = 0",
"claim": "the repeated hour is told apart by the flag"
},
{
"file": "Tz/Model",
"def": "ruleIsdst",
"old": "mabs r.offset - mabs r.offsetDst",
"new": "mabs r.offsetDst - mabs r.offset",
"claim": "DST ends when the DST clock shows the end"
},
{
"file": "Tz/Model",
"def": "ruleIsdst",
"old": "if dststart < dstend then",
"new": "if dststart > dstend then",
"claim": "which kind of rule it is"
},
{
"file": "Tz/Model",
"def": "getOffset",
"old": "some (r.offsetDst, true)",
"new": "some (r.offset, true)",
"claim": "offset during DST"
},
{
"file": "Tz/Model",
"def": "getOffset",
"old": "some (r.offsetDst, true)",
"new": "some (r.offsetDst, false)",
"claim": "DST is flagged"
},
{
"file": "Tz/Model",
"def": "getOffset",
"old": "| some false => some (r.offset, false)",
"new": "| some false => some (z.offset, false)",
"claim": "standard offset of the rule"
},
{
"file": "Tz/Model",
"def": "getOffset",
"old": "| some none => some (z.offset, false)",
"new": "| some none => some (0, false)",
"claim": "offset without rules"
},
{
"file": "Tz/Model",
"def": "togmLocal",
"old": "isdst := 0",
"new": "isdst := 1",
"claim": "standard time is looked up as such"
},
{
"file": "Tz/Model",
"def": "ruleToLocal",
"old": "match togmLocal (gmt + r.offset) with",
"new": "match togmLocal gmt with",
"claim": "the change is in local time"
},
{
"file": "Tz/Model",
"def": "ruleToLocal",
"old": "match togmLocal (gmt + r.offset) with",
"new": "match togmLocal (gmt - r.offset) with",
"claim": "the change is in local time"
},
{
"file": "Tz/Model",
"def": "ruleToLocal",
"old": "match togmLocal (gmt + r.offset) with",
"new": "match togmLocal (gmt + r.offsetDst) with",
"claim": "the start of DST is in standard time"
},
{
"file": "Tz/Model",
"def": "ruleToLocal",
"old": "(if isdst then z.abbrDst else z.abbr)",
"new": "(if isdst then z.abbr else z.abbrDst)",
"claim": "abbreviation"
},
{
"file": "Tz/Model",
"def": "ruleToLocal",
"old": "some { offset := z.offset, isdst := false, abbr := none }",
"new": "some { offset := 0, isdst := false, abbr := none }",
"claim": "offset of a zone without rules"
},
{
"file": "Tz/Model",
"def": "ruleFromLocal",
"old": "some (o * -1)",
"new": "some o",
"claim": "round trip"
},
{
"file": "Tz/Model",
"def": "transCmp",
"old": "a.start > b.start then -1 else 1",
"new": "a.start > b.start then 1 else -1",
"claim": "latest transition first"
},
{
"file": "Tz/Model",
"def": "firstStd",
"old": "if t.isdst = false then some t",
"new": "if t.isdst = true then some t",
"claim": "before all transitions standard time"
},
{
"file": "Tz/Model",
"def": "firstStd",
"old": "| 0, last => last",
"new": "| 0, _ => none",
"claim": "before all transitions standard time",
"comment": "equivalent: without a standard transition the first one is used either way"
},
{
"file": "Tz/Model",
"def": "getTransition",
"old": "if t.isdst = true then some ts[ts.length - 1]? else some (some t)",
"new": "some (some t)",
"claim": "all DST: the first transition"
},
{
"file": "Tz/Model",
"def": "getTransition",
"old": "match ts[idx]? with",
"new": "match ts[idx - 1]? with",
"claim": "the last transition that has taken place"
},
{
"file": "Tz/Model",
"def": "oneDay",
"old": "86400",
"new": "-86400",
"claim": "round trip"
},
{
"file": "Tz/Model",
"def": "oneDay",
"old": "86400",
"new": "0",
"claim": "round trip"
},
{
"file": "Tz/Model",
"def": "olsonFromLocal",
"old": "if prev = next then some (prev.offset * -1)",
"new": "if prev = next then some prev.offset",
"claim": "round trip"
},
{
"file": "Tz/Model",
"def": "olsonFromLocal",
"old": "let prevValid := tstamp - prev.offset ≥ prev.start",
"new": "let prevValid := tstamp - prev.offset ≥ next.start",
"claim": "round trip"
},
{
"file": "Tz/Model",
"def": "olsonFromLocal",
"old": "let nextValid := tstamp - next.offset ≥ next.start",
"new": "let nextValid := tstamp - next.offset > next.start",
"claim": "first instant of the later transition"
},
{
"file": "Tz/Model",
"def": "olsonFromLocal",
"old": "let nextValid := tstamp - next.offset ≥ next.start",
"new": "let nextValid := tstamp ≥ next.start",
"claim": "transitions are in UTC"
},
{
"file": "Tz/Model",
"def": "olsonFromLocal",
"old": "(if l.isdst = 1 then some (prev.offset * -1) else some (next.offset * -1))",
"new": "(if l.isdst = 1 then some (next.offset * -1) else some (prev.offset * -1))",
"claim": "the repeated hour is told apart by the flag"
},
{
"file": "Tz/Model",
"def": "olsonFromLocal",
"old": "(if l.isdst = 1 then some (prev.offset * -1) else some (next.offset * -1))",
"new": "some (next.offset * -1)",
"claim": "the repeated hour is told apart by the flag"
},
{
"file": "Tz/Model",
"def": "olsonFromLocal",
"old": "(if l.isdst = 1 then some (next.offset * -1) else some (prev.offset * -1))",
"new": "some (next.offset * -1)",
"claim": "negative DST: the repeated hour is told apart by the flag"
},
{
"file": "Tz/Model",
"def": "olsonFromLocal",
"old": "else if prevValid ∧ ¬ nextValid then some (prev.offset * -1)",
"new": "else if prevValid ∧ ¬ nextValid then some (next.offset * -1)",
"claim": "before a transition the earlier offset"
},
{
"file": "Tz/Model",
"def": "olsonToLocal",
"old": "isdst := t.isdst",
"new": "isdst := false",
"claim": "DST is flagged"
},
{
"file": "Tz/Model",
"def": "olsonToLocal",
"old": "offset := t.offset, isdst",
"new": "offset := -t.offset, isdst",
"claim": "local time at the offset"
},
{
"file": "Tz/Model",
"def": "tolocal",
"old": "togmLocal (t + a.offset)",
"new": "togmLocal (t - a.offset)",
"claim": "local time at the offset"
},
{
"file": "Tz/Model",
"def": "tolocal",
"old": "gmtoff := a.offset",
"new": "gmtoff := -a.offset",
"claim": "offset reported"
},
{
"file": "Tz/Model",
"def": "tolocal",
"old": "if a.isdst then 1 else 0",
"new": "if a.isdst then 0 else 1",
"claim": "DST is flagged"
},
{
"file": "Tz/Model",
"def": "fromlocalTz",
"old": "isdst := l.isdst",
"new": "isdst := 0",
"claim": "the flag is kept over normalising"
},
{
"file": "Tz/Model",
"def": "fromlocalTz",
"old": "some ((fromgm l.tm).1 + o)",
"new": "some ((fromgm l.tm).1 - o)",
"claim": "round trip"
},
{
"file": "Tz/Model",
"def": "fromlocal",
"old": "some (t, l')",
"new": "some (t, l)",
"claim": "the structure is left consistent",
"comment": "equivalent on the results of M_time_tolocal, which is all the theorem is about"
}
]