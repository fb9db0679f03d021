[
{
"file": "IoBuffer/Model",
"def": "processRead",
"old": "hitR := decide (bs.length ≥ req) }, decide (b.len ≠ bs.length), bs)",
"new": "hitR := decide (bs.length > req) }, decide (b.len ≠ bs.length), bs)",
"claim": "bytes that wait below are asked for once there is room"
},
{
"file": "IoBuffer/Model",
"def": "processRead",
"old": "decide (b.len ≠ bs.length), bs)",
"new": "decide (b.len = bs.length), bs)",
"claim": "the application is told of bytes to be read"
},
{
"file": "IoBuffer/Model",
"def": "target",
"old": "if a > h.maxR then h.maxR else a",
"new": "a",
"claim": "the read buffer stays within its maximum"
},
{
"file": "IoBuffer/Model",
"def": "target",
"old": "if a < 16384 then 16384 else a",
"new": "a",
"claim": "the buffer starts at 16384 bytes"
},
{
"file": "IoBuffer/Model",
"def": "processWrite",
"old": "if h.hitW = false then",
"new": "if h.hitW = true then",
"claim": "a writer that was refused is told"
},
{
"file": "IoBuffer/Model",
"def": "processWrite",
"old": "(Buf.drop h.w k).map",
"new": "(Buf.drop h.w bs.length).map",
"claim": "what was written is sent"
},
{
"file": "IoBuffer/Model",
"def": "readCb",
"old": "if h.r.len < n then h.r.len else n",
"new": "if h.r.len < n then h.r.len + 1 else n",
"claim": "a read gives bytes that arrived only"
},
{
"file": "IoBuffer/Model",
"def": "add",
"old": "maxR := roundUp64 maxR",
"new": "maxR := maxR",
"claim": "the maximum is rounded up to a power of two"
},
{
"file": "IoBuffer/Model",
"def": "writeCb",
"old": "(h.maxW + W - h.w.len) % W",
"new": "(h.maxW + 1 + W - h.w.len) % W",
"claim": "the write buffer stays within its maximum"
},
{
"file": "IoBuffer/Model",
"def": "writeCb",
"old": "if full then { h with hitW := true } else h",
"new": "h",
"claim": "a writer that was refused is told"
},
{
"file": "IoBuffer/Model",
"def": "writeCb",
"old": "(bs.take len)",
"new": "bs",
"claim": "bytes that were refused are not sent"
},
{
"file": "IoBuffer/Model",
"def": "readCb",
"old": "bs, h.hitR)",
"new": "bs, false)",
"claim": "bytes that wait below are asked for once there is room"
}
]