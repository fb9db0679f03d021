[
{
"file": "Re/Model",
"def": "checkAsr",
"old": "(a.testBit 0 && (decide (x.pos > 0) &&",
"new": "(a.testBit 0 && (decide (x.pos > 1) &&",
"claim": "^ holds after the first character"
},
{
"file": "Re/Model",
"def": "checkAsr",
"old": "(x.next != 10 || !ml)))",
"new": "(x.next != 10)))",
"claim": "$ matches before a newline without multi line"
},
{
"file": "Re/Model",
"def": "checkAsr",
"old": "(a.testBit 1 && (x.next != 0 &&",
"new": "(a.testBit 1 && (x.prev != 0 &&",
"claim": "$ looks at the wrong side"
},
{
"file": "Re/Model",
"def": "checkAsr",
"old": "(isWord alnum x.prev || !isWord alnum x.next))",
"new": "(isWord alnum x.prev && !isWord alnum x.next))",
"claim": "beginning of word holds too often"
},
{
"file": "Re/Model",
"def": "checkAsr",
"old": "(!isWord alnum x.prev || isWord alnum x.next))",
"new": "(!isWord alnum x.next || isWord alnum x.prev))",
"claim": "end of word mixed up with beginning"
},
{
"file": "Re/Model",
"def": "checkAsr",
"old": "(x.pos != 0 && x.next != 0 && isWord",
"new": "(x.next != 0 && isWord",
"claim": "\\b does not hold at the beginning"
},
{
"file": "Re/Model",
"def": "checkAsr",
"old": "x.pos == 0 || x.next == 0 || isWord alnum x.prev != isWord alnum x.next",
"new": "x.pos == 0 || isWord alnum x.prev != isWord alnum x.next",
"claim": "\\B holds at the end"
},
{
"file": "Re/Model",
"def": "isWord",
"old": "c == 95 ||",
"new": "c == 45 ||",
"claim": "underscore no word character"
},
{
"file": "Re/Model",
"def": "asrOk",
"old": "!(a != 0 && checkAsr",
"new": "!(a == 0 && checkAsr",
"claim": "assertions ignored"
},
{
"file": "Re/Model",
"def": "setTags",
"old": "if k < tg.length then tg.set k pos else tg",
"new": "if k + 1 < tg.length then tg.set k pos else tg",
"claim": "last tag never set"
},
{
"file": "Re/Model",
"def": "setTags",
"old": "tg.set k pos",
"new": "tg.set k (pos - 1)",
"claim": "tags off by one"
},
{
"file": "Re/Model",
"def": "addInit1",
"old": "if has acc.1 tr.dst then acc\n  else if",
"new": "if has acc.1 tr.dst then (acc.1.filter (fun e => e.st != tr.dst) ++ [⟨tr.dst, setTags x.pos tr.tags (List.replicate nt (-1))⟩], acc.2)\n  else if",
"claim": "a new start replaces an older one"
},
{
"file": "Re/Model",
"def": "addInit1",
"old": "if tr.dst = t.final then ⟨some x.pos, tg, true⟩ else acc.2)",
"new": "acc.2)",
"claim": "the empty match is not seen"
},
{
"file": "Re/Model",
"def": "addInit1",
"old": "else if !asrOk alnum t.multiline x tr.asr then acc\n",
"new": "else if false then acc\n",
"claim": "assertions of initial transitions ignored"
},
{
"file": "Re/Model",
"def": "addInit1",
"old": "else if !asrOk alnum t.multiline x tr.asr then acc\n",
"new": "else if !asrOk alnum true x tr.asr then acc\n",
"claim": "always multi line"
},
{
"file": "Re/Model",
"def": "arrive",
"old": "tg.getD 0 0 ≤ acc.2.tags.getD 0 0",
"new": "tg.getD 0 0 < acc.2.tags.getD 0 0",
"claim": "shortest instead of longest"
},
{
"file": "Re/Model",
"def": "arrive",
"old": "tg.getD 0 0 ≤ acc.2.tags.getD 0 0",
"new": "tg.getD 0 0 ≥ acc.2.tags.getD 0 0",
"claim": "later start wins"
},
{
"file": "Re/Model",
"def": "arrive",
"old": "(acc.2.eo = none ∨ (nt > 0 ∧ tg.getD 0 0 ≤ acc.2.tags.getD 0 0))",
"new": "acc.2.eo = none",
"claim": "first match is kept: not the longest"
},
{
"file": "Re/Model",
"def": "arrive",
"old": "(acc.2.eo = none ∨ (nt > 0 ∧ tg.getD 0 0 ≤ acc.2.tags.getD 0 0))",
"new": "True",
"claim": "the last to arrive wins whatever its start"
},
{
"file": "Re/Model",
"def": "arrive",
"old": "(acc.1 ++ [⟨q, tg⟩],",
"new": "(if q = t.final then acc.1 else acc.1 ++ [⟨q, tg⟩],",
"claim": "final state not followed further"
},
{
"file": "Re/Model",
"def": "arrive",
"old": "(acc.1 ++ [⟨q, tg⟩],",
"new": "(⟨q, tg⟩ :: acc.1,",
"claim": "order of the states reversed"
},
{
"file": "Re/Model",
"def": "arrive",
"old": "if !has acc.1 q then",
"new": "if !has acc.1 q || acc.1.length < 2 then",
"claim": "a state twice in the list"
},
{
"file": "Re/Model",
"def": "arrive",
"old": "tagOrder t.small tg (tagsOf acc.1 q)",
"new": "tagOrder t.small (tagsOf acc.1 q) tg",
"claim": "the worse path is kept"
},
{
"file": "Re/Model",
"def": "visit",
"old": "c.2.lo ≤ x.prev ∧ c.2.hi ≥ x.prev",
"new": "c.2.lo ≤ x.prev ∧ c.2.hi > x.prev",
"claim": "upper end of a range excluded"
},
{
"file": "Re/Model",
"def": "visit",
"old": "c.2.lo ≤ x.prev ∧ c.2.hi ≥ x.prev",
"new": "c.2.lo ≤ x.next ∧ c.2.hi ≥ x.next",
"claim": "the wrong character is compared"
},
{
"file": "Re/Model",
"def": "visit",
"old": "if !asrOk alnum t.multiline x c.2.asr then acc",
"new": "if false then acc",
"claim": "assertions ignored after the start"
},
{
"file": "Re/Model",
"def": "weed",
"old": "if !t.minimals.isEmpty && m.fresh then",
"new": "if m.fresh then",
"claim": "weeding for greedy patterns too"
},
{
"file": "Re/Model",
"def": "weed",
"old": "!behind nt m.tags e.tags t.minimals",
"new": "behind nt m.tags e.tags t.minimals",
"claim": "the wrong entries are dropped"
},
{
"file": "Re/Model",
"def": "go",
"old": "if m.eo = none then finish (addInit",
"new": "if m.eo ≠ none then finish (addInit",
"claim": "no match at the end of the text"
},
{
"file": "Re/Model",
"def": "go",
"old": "if m.eo ≠ none ∧ (nt = 0 ∨ r = []) then finish m",
"new": "if m.eo ≠ none then finish m",
"claim": "stops at the first match"
},
{
"file": "Re/Model",
"def": "go",
"old": "if m.eo ≠ none ∧ (nt = 0 ∨ r = []) then finish m",
"new": "if r = [] ∧ pos > 0 then finish m",
"claim": "stops when no state is reached"
},
{
"file": "Re/Model",
"def": "go",
"old": "let a := if m.eo = none then addInit",
"new": "let a := if pos = 0 then addInit",
"claim": "only at the beginning"
},
{
"file": "Re/Model",
"def": "go",
"old": "⟨pos + w, c, rest.next⟩",
"new": "⟨pos + 1, c, rest.next⟩",
"claim": "offsets in characters"
},
{
"file": "Re/Model",
"def": "go",
"old": "⟨pos + w, c, rest.next⟩",
"new": "⟨pos + w, c, c⟩",
"claim": "look-ahead is the character itself"
},
{
"file": "Re/Model",
"def": "offOf",
"old": "if k = t.endTag then eo",
"new": "if k = t.endTag then eo - 1",
"claim": "end off by one"
},
{
"file": "Re/Model",
"def": "subOf",
"old": "if so = -1 ∨ e = -1 then (-1, -1) else (so, e)",
"new": "if so = -1 ∨ e = -1 then (-1, -1) else (e, so)",
"claim": "start and end swapped"
},
{
"file": "Re/Model",
"def": "inParents",
"old": "if v.1 < w.1 ∨ v.2 > w.2 then (-1, -1) else v",
"new": "if v.1 < w.1 ∨ v.2 > w.2 then v else (-1, -1)",
"claim": "submatch inside its parent dropped"
},
{
"file": "Re/Model",
"def": "nest",
"old": "nest subs n (i + 1) (pm.set i",
"new": "nest subs n (i + 1) (pm.set (i + 1)",
"claim": "wrong entry changed"
},
{
"file": "Re/Model",
"def": "exec",
"old": "if want then t.numTags else 0",
"new": "if want then 0 else t.numTags",
"claim": "tags only when not wanted"
},
{
"file": "Re/Model",
"def": "caps",
"old": "⟨i, so, eo - so⟩",
"new": "⟨i, so, eo⟩",
"claim": "length is the end"
},
{
"file": "Re/Model",
"def": "caps",
"old": "⟨i, so, eo - so⟩ ::",
"new": "⟨i + 1, so, eo - so⟩ ::",
"claim": "captures numbered from 1"
},
{
"file": "Re/Model",
"def": "caps",
"old": "if (so = 0 ∧ eo = 0) ∨",
"new": "if (so = eo) ∨",
"claim": "all empty captures dropped"
},
{
"file": "Re/Model",
"def": "eqStart",
"old": "(capIdx0 m).1 == 0",
"new": "(capIdx0 m).2 == 0",
"claim": "length compared"
},
{
"file": "Re/Model",
"def": "eq",
"old": "(capIdx0 m).1 == 0 && ",
"new": "",
"claim": "match at the end taken for the whole"
},
{
"file": "Re/Model",
"def": "shift",
"old": "c.off + pos",
"new": "c.off",
"claim": "offsets not adjusted"
},
{
"file": "Re/Model",
"def": "matchesLoop",
"old": "(pos + (o + l).toNat)",
"new": "(pos + l.toNat)",
"claim": "resumes too early"
},
{
"file": "Re/Model",
"def": "matchesLoop",
"old": "(pos + (o + l).toNat)",
"new": "(pos + (o + l).toNat + 1)",
"claim": "skips a byte after each match"
},
{
"file": "Re/Model",
"def": "scan",
"old": "if b = 0 then .eos",
"new": "if b = 10 then .eos",
"claim": "stops at a newline"
}
]