[
{
"file": "Shaping/Model",
"def": "expire",
"old": "if elapsed s.start (c k) < keep then (bytes, s :: rest, k + 1)\n    else expire c keep (bytes - s.bytes)",
"new": "if elapsed s.start (c k) + 1 < keep then (bytes, s :: rest, k + 1)\n    else expire c keep (bytes - s.bytes)",
"claim": "slots go one millisecond early"
},
{
"file": "Shaping/Model",
"def": "expire",
"old": "expire c keep (bytes - s.bytes) rest (k + 1)",
"new": "expire c keep bytes rest (k + 1)",
"claim": "the bytes of a slot that goes are kept"
},
{
"file": "Shaping/Model",
"def": "expire",
"old": "expire c keep (bytes - s.bytes) rest (k + 1)",
"new": "(bytes - s.bytes, rest, k + 1)",
"claim": "only one slot goes at a time"
},
{
"file": "Shaping/Model",
"def": "newSlot",
"old": "if tr.slots.length = tr.size then none",
"new": "if tr.slots.length + 1 = tr.size then none",
"claim": "one slot fewer"
},
{
"file": "Shaping/Model",
"def": "newSlot",
"old": "bytes := tr.bytes + n, slots := tr.slots ++ [{ bytes := n, start := c k }]",
"new": "bytes := tr.bytes, slots := tr.slots ++ [{ bytes := n, start := c k }]",
"claim": "the first bytes of a slot are not counted"
},
{
"file": "Shaping/Model",
"def": "newSlot",
"old": "tr.slots ++ [{ bytes := n, start := c k }]",
"new": "tr.slots ++ [{ bytes := n, start := 0 }]",
"claim": "a slot without a time"
},
{
"file": "Shaping/Model",
"def": "newSlot",
"old": "tr.slots ++ [{ bytes := n, start := c k }]",
"new": "[{ bytes := n, start := c k }] ++ tr.slots",
"claim": "new slots in front"
},
{
"file": "Shaping/Model",
"def": "add",
"old": "if elapsed s.start (c k) > f.freq then",
"new": "if elapsed s.start (c k) > 2 * f.freq then",
"claim": "slots twice as long"
},
{
"file": "Shaping/Model",
"def": "add",
"old": "if elapsed s.start (c k) > f.freq then",
"new": "if elapsed s.start (c k) ≤ f.freq then",
"claim": "the condition for a new slot reversed"
},
{
"file": "Shaping/Model",
"def": "add",
"old": "some ({ tr with bytes := tr.bytes + n, slots := bump n tr.slots }, k + 1)",
"new": "some ({ tr with slots := bump n tr.slots }, k + 1)",
"claim": "later bytes of a slot are not counted"
},
{
"file": "Shaping/Model",
"def": "add",
"old": "some ({ tr with bytes := tr.bytes + n, slots := bump n tr.slots }, k + 1)",
"new": "some ({ tr with bytes := tr.bytes + n }, k + 1)",
"claim": "later bytes are not put into the slot"
},
{
"file": "Shaping/Model",
"def": "inPeriod",
"old": "if elapsed s.start (c k) ≥ f.freq then (0, k + 1)",
"new": "if elapsed s.start (c k) > f.freq then (0, k + 1)",
"claim": "the comparison at the end of a slot"
},
{
"file": "Shaping/Model",
"def": "perSlot",
"old": "if f.bps * f.period % W / (periodMs f / f.freq) = 0 then 1 else",
"new": "if f.bps * f.period % W / (periodMs f / f.freq) = 0 then 0 else",
"claim": "a rate of zero per slot"
},
{
"file": "Shaping/Model",
"def": "allowed",
"old": "if f.bps = 0 then (W - 1, k)",
"new": "if f.bps = 0 then (0, k)",
"claim": "no limit means nothing"
},
{
"file": "Shaping/Model",
"def": "allowed",
"old": "(if f.bps * f.period % W ≤ tr.bytes then 0 else f.bps * f.period % W - tr.bytes, k)",
"new": "(if f.bps * f.period % W ≤ tr.bytes then 0 else f.bps * f.period % W, k)",
"claim": "bytes already moved do not count"
},
{
"file": "Shaping/Model",
"def": "allowed",
"old": "(if f.bps * f.period % W ≤ tr.bytes then 0 else f.bps * f.period % W - tr.bytes, k)",
"new": "(if f.bps * f.period % W < tr.bytes then 0 else f.bps * f.period % W - tr.bytes + 1, k)",
"claim": "one byte too many"
},
{
"file": "Shaping/Model",
"def": "maxSize",
"old": "let a := allowed c f e.1 e.2\n  (a.1, e.1, a.2)",
"new": "let a := allowed c f tr e.2\n  (a.1, e.1, a.2)",
"claim": "old slots still count"
},
{
"file": "Shaping/Model",
"def": "waitFor",
"old": "if f.burst then tr.slots.head?.map fun s => (s, periodMs f)",
"new": "if f.burst then tr.slots.getLast?.map fun s => (s, periodMs f)",
"claim": "waits for the newest slot"
},
{
"file": "Shaping/Model",
"def": "waitFor",
"old": "tr.slots.getLast?.map fun s => (s, f.freq)",
"new": "tr.slots.getLast?.map fun s => (s, periodMs f)",
"claim": "trickle waits for the whole period"
},
{
"file": "Shaping/Model",
"def": "waitFor",
"old": "if f.burst then tr.slots.head?.map fun s => (s, periodMs f)",
"new": "if f.burst then tr.slots.head?.map fun s => (s, f.freq)",
"claim": "burst waits for a slot only"
},
{
"file": "Shaping/Model",
"def": "slotsFor",
"old": "periodMs f / f.freq + 1",
"new": "periodMs f / f.freq",
"claim": "a slot too few"
},
{
"file": "Shaping/Model",
"def": "transfer",
"old": "total := d.total + n, last := c k",
"new": "last := c k",
"claim": "the total is not kept"
},
{
"file": "Shaping/Model",
"def": "transfer",
"old": "total := d.total + n, last := c k",
"new": "total := d.total + n",
"claim": "the time of the transfer is not kept"
},
{
"file": "Shaping/Model",
"def": "latency",
"old": "if d.conf.lat < elapsed d.last (c k) then 0\n  else if rd && d.full then 0",
"new": "if d.conf.lat < elapsed d.last (c k) then 0\n  else if d.full then 0",
"claim": "a full read lets writes pass"
},
{
"file": "Shaping/Model",
"def": "latency",
"old": "else d.conf.lat - elapsed d.last (c k)",
"new": "else d.conf.lat - elapsed d.last (c k) - 1",
"claim": "latency one millisecond short"
},
{
"file": "Shaping/Model",
"def": "timeoutDir",
"old": "else if d.conf.bps = 0 ∧ d.conf.lat = 0 then some (inf, d, k)",
"new": "else if d.conf.bps = 0 then some (inf, d, k)",
"claim": "latency alone has no timer"
},
{
"file": "Shaping/Model",
"def": "timeoutDir",
"old": "(max r.1 (latency c rd d r.2.2)",
"new": "(r.1 + 0 * (latency c rd d r.2.2)",
"claim": "the latency is left out of the timer"
},
{
"file": "Shaping/Model",
"def": "timeoutDir",
"old": "(max r.1 (latency c rd d r.2.2)",
"new": "(min r.1 (latency c rd d r.2.2)",
"claim": "the earlier of the two times"
},
{
"file": "Shaping/Model",
"def": "arm",
"old": "if min i o = inf then none else some (min i o)",
"new": "if max i o = inf then none else some (max i o)",
"claim": "the timer for the later direction"
},
{
"file": "Shaping/Model",
"def": "lessThan",
"old": "waiting := decide (d.conf.lat ≠ 0)",
"new": "waiting := true",
"claim": "waits though the layer below will tell"
},
{
"file": "Shaping/Model",
"def": "go",
"old": "waiting := decide (m < len), full",
"new": "waiting := false, full",
"claim": "no timer after a partial write"
},
{
"file": "Shaping/Model",
"def": "go",
"old": "min n (min len m) < min len m then lessThan r.1",
"new": "min n (min len m) < len then lessThan r.1",
"claim": "what the limit cut off counts as cut off below"
},
{
"file": "Shaping/Model",
"def": "xfer",
"old": "if m.1 = 0 then some ({ d with tr := m.2.1, waiting := true }, .block rd, m.2.2)",
"new": "if m.1 = 0 then some ({ d with tr := m.2.1 }, .block rd, m.2.2)",
"claim": "nobody waits when nothing is allowed"
},
{
"file": "Shaping/Model",
"def": "xfer",
"old": "if latency c rd d 0 ≠ 0 then some ({ d with waiting := true }, .block rd, 1)\n  else",
"new": "if latency c rd d 0 > 1000 then some ({ d with waiting := true }, .block rd, 1)\n  else",
"claim": "short latencies are not kept"
},
{
"file": "Shaping/Model",
"def": "clear",
"old": "{ bytes := 0, slots := [], size := slotsFor d.conf }",
"new": "{ bytes := d.tr.bytes, slots := [], size := slotsFor d.conf }",
"claim": "the count stays when the slots go"
},
{
"file": "Shaping/Model",
"def": "clear",
"old": "size := slotsFor d.conf }",
"new": "size := d.tr.size }",
"claim": "the number of slots stays when the settings change"
},
{
"file": "Shaping/Model",
"def": "badPeriod",
"old": "period * 1000 % W ≤ freq",
"new": "false",
"claim": "any frequency"
},
{
"file": "Shaping/Model",
"def": "setLatency",
"old": "last := c 0 }",
"new": "last := d.last + 0 * c 0 + lat }",
"claim": "the latency moves the time of the last transfer"
},
{
"file": "Shaping/Model",
"def": "timerCb",
"old": "if numWait h i.1 o.1 > 0 then",
"new": "if numWait h i.1 o.1 > 1 then",
"claim": "the timer does not run on for one"
},
{
"file": "Shaping/Model",
"def": "softIf",
"old": "if t = 0 then [.soft rd] else []",
"new": "if t = 0 then [.soft (!rd)] else []",
"claim": "the other direction is told"
},
{
"file": "Shaping/Model",
"def": "processCb",
"old": "put h rd { r.2.1 with waiting := false }",
"new": "put h rd { r.2.1 with waiting := false, last := c 0 }",
"claim": "an event starts the latency again"
},
{
"file": "Shaping/Model",
"def": "processCb",
"old": "if r.1 = 0 then (setTimeout",
"new": "if r.1 ≠ 0 ∧ r.1 ≠ inf then (setTimeout",
"claim": "events pass while waiting"
}
]