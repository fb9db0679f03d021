[
{"file":"Queue/Model","def":"insert","old":"if found.isSome then some (false, q) else do","new":"do","claim":"C13: a member is held once"},
{"file":"Queue/Model","def":"remove","old":"let (_, hash) ← Hash.remove (cfg hf) q.hash member\n      some (true","new":"let hash := q.hash\n      some (true","claim":"C13: exists is false after remove"},
{"file":"Queue/Model","def":"takeFirst","old":"let (_, hash) ← Hash.remove (cfg hf) q.hash member\n    some (member","new":"let hash := q.hash\n    some (member","claim":"C13: a taken member can be inserted again"},
{"file":"Queue/Model","def":"foreach","old":"match nx with | none => .fin | some m => .node m","new":"match nx with | none => .start | some m => .node m","claim":"C13: foreach terminates after the last member"},
{"file":"Cache/Model","def":"insert","old":"if c.list.elements = c.max then do","new":"if c.list.elements > c.max then do","claim":"C12: at most max_size keys"},
{"file":"Cache/Model","def":"insert","old":"let (_, table) ← Hash.remove (cfg cb) c.table cval.1\n            let list","new":"let table := c.table\n            let list","claim":"C12: the evicted key is gone"},
{"file":"Cache/Model","def":"insert","old":"let bucket ← c.list.tail\n            let cval","new":"let bucket ← c.list.head\n            let cval","claim":"C12: the least recently used key is evicted"},
{"file":"Cache/Model","def":"insert","old":"let list ← LList.setFirst c.list bucket\n      some (true, { c with list := list })","new":"some (true, c)","claim":"C12: insert makes a key the most recently used"},
{"file":"Cache/Model","def":"get","old":"let list ← LList.setFirst c.list bucket\n      let cval","new":"let list := c.list\n      let cval","claim":"C12: get makes a key the most recently used"},
{"file":"Cache/Model","def":"shrinkLoop","old":"let bucket ← c.list.tail\n      let (cval","new":"let bucket ← c.list.head\n      let (cval","claim":"C12: set_max_size drops the least recently used"},
{"file":"Cache/Model","def":"setMaxSize","old":"fun c => { c with max := max }","new":"fun c => c","claim":"C12: the new bound applies"}
]
