[
{"file":"Hash/Model","def":"hashIdx","old":"&&& ((h.size + (2 ^ 32 - 1)) % 2 ^ 32)","new":"&&& (h.size % 2 ^ 32)","claim":"C09: an inserted key is found after a rehash (mask uses size instead of size-1)"},
{"file":"Hash/Model","def":"link","old":"| hd :: tl => hd :: e :: tl","new":"| hd :: tl => hd :: e :: tl.tail","claim":"C09: chaining a colliding key keeps the other entries of the bucket"},
{"file":"Hash/Model","def":"insertDirect","old":"numKeys := h.numKeys + 1\n        numCollisions","new":"numKeys := h.numKeys\n        numCollisions","claim":"C09: num_keys counts the live keys"},
{"file":"Hash/Model","def":"insertDirect","old":"else some { h with buckets := h.buckets.set idx (chain.set p (e.1, [v])) }","new":"else some h","claim":"C09: a second insert of a key replaces its value"},
{"file":"Hash/Model","def":"rehashLoop","old":"| some h => rehashLoop c es h","new":"| some h => rehashLoop c es.tail h","claim":"C09: a resize loses no entry"},
{"file":"Hash/Model","def":"insertRehash","old":"buckets := h.buckets.set idx (link chain e) }","new":"buckets := h.buckets.set idx [e] }","claim":"C09: a resize keeps colliding entries"},
{"file":"Hash/Model","def":"rehash","old":"buckets := List.replicate (h.size * 2) [] }","new":"buckets := List.replicate h.size [] }","claim":"C09: a resize does not index past the new bucket array"},
{"file":"Hash/Model","def":"unlink","old":"| some next => chain.take p ++ next :: chain.drop (p + 2)","new":"| some next => chain.take p ++ next :: chain.drop (p + 1)","claim":"C09/C11: remove leaves the other entries once each"},
{"file":"Hash/Model","def":"unlink","old":"| none => if p = 0 then [] else chain.take p","new":"| none => []","claim":"C09: removing the last chained entry keeps the others"},
{"file":"Hash/Model","def":"remove","old":"numValues := h.numValues - e.2.length })","new":"numValues := h.numValues - 1 })","claim":"C10: the announced number of values is exact after removing a multi-value key"},
{"file":"Hash/Model","def":"get","old":"let idx := if c.multi && c.getLast then e.2.length - 1 else 0","new":"let idx := if c.getLast then 0 else e.2.length - 1","claim":"C10: get returns first or last value according to the flag"},
{"file":"Hash/Model","def":"multiRemove","old":"if i ≥ e.2.length then some (false, h)","new":"if i > e.2.length then some (false, h)","claim":"C10: multi_remove of an index past the end is refused"},
{"file":"Hash/Model","def":"enumNextU","old":"if st.valueidx + 1 ≥ e.2.length then","new":"if st.valueidx + 1 > e.2.length then","claim":"C11: no value is yielded that is not there"},
{"file":"Hash/Model","def":"enumNextU","old":"| none => enumNextU c h n { st with hash := st.hash + 1, chainid := 0 }","new":"| none => enumNextU c h n { st with hash := st.hash + 1 }","claim":"C11: the first chained entries of later buckets are yielded"},
{"file":"Hash/Model","def":"addKey","old":"if c.keysSorted then keys.takeWhile (fun x => decide (c.cmp x k ≤ 0)) ++ k :: keys.dropWhile","new":"if c.keysSorted then keys.takeWhile (fun x => decide (c.cmp k x ≤ 0)) ++ k :: keys.dropWhile","claim":"C11: sorted keys are enumerated in order"},
{"file":"Hash/Model","def":"remove","old":"keys := if c.ordered then h.keys.eraseP (fun x => decide (c.cmp e.1 x = 0)) else h.keys","new":"keys := h.keys","claim":"C11: a removed key is not enumerated"},
{"file":"Hash/Model","def":"merge","old":"insertAll c r.2 dest","new":"insertAll c r.2.tail dest","claim":"C54: merge takes every pair of the source"},
{"file":"Hash/Model","def":"duplicate","old":"(create c h.size).bind","new":"(create c 0).bind","claim":"C54: duplicate yields a table"}
]
