[
{
"file": "FsFile/Model",
"def": "enqueue",
"old": "(-f.readOff)",
"new": "f.readOff",
"claim": "a write after a buffered read goes to the user's position"
},
{
"file": "FsFile/Model",
"def": "enqueue",
"old": "readBuf := [], readOff := 0",
"new": "readOff := 0",
"claim": "a write forgets what was read ahead"
},
{
"file": "FsFile/Model",
"def": "enqueue",
"old": "f1.writeBuf ++ bs",
"new": "bs ++ f1.writeBuf",
"claim": "bytes are written in order"
},
{
"file": "FsFile/Model",
"def": "write",
"old": "({ r.1 with writeBuf := r.1.writeBuf.drop r.2.2 }, r.2.1, bs.length)",
"new": "({ r.1 with writeBuf := [] }, r.2.1, bs.length)",
"claim": "a short write keeps the rest pending"
},
{
"file": "FsFile/Model",
"def": "write",
"old": "({ r.1 with writeBuf := r.1.writeBuf.drop r.2.2 }, r.2.1, bs.length)",
"new": "({ r.1 with writeBuf := r.1.writeBuf.drop bs.length }, r.2.1, bs.length)",
"claim": "what was written leaves the buffer, no more"
},
{
"file": "FsFile/Model",
"def": "write",
"old": "r.2.1, bs.length)\n",
"new": "r.2.1, r.2.2)\n",
"claim": "a buffered write reports the bytes it accepted"
},
{
"file": "FsFile/Model",
"def": "write",
"old": "if f2.writeBuf.length < f2.bufSize then (f2, true, bs.length)",
"new": "if f2.writeBuf.length < f2.bufSize then (f2, true, 0)",
"claim": "a buffered write reports the bytes it accepted"
},
{
"file": "FsFile/Model",
"def": "sync",
"old": "({ f1 with writeBuf := data.drop r.2.2 }, false)",
"new": "({ f1 with writeBuf := data }, false)",
"claim": "a failed flush keeps only what was not written"
},
{
"file": "FsFile/Model",
"def": "sync",
"old": "({ f1 with writeBuf := data.drop r.2.2 }, false)",
"new": "(f1, false)",
"claim": "a failed flush keeps what was not written"
},
{
"file": "FsFile/Model",
"def": "sync",
"old": "({ f1 with writeBuf := data.drop r.2.2 }, false)",
"new": "({ f1 with writeBuf := data.drop r.2.2 }, true)",
"claim": "a flush reports that bytes are left"
},
{
"file": "FsFile/Model",
"def": "sync",
"old": "data true",
"new": "data false",
"claim": "a flush writes everything"
},
{
"file": "FsFile/Model",
"def": "readLoop",
"old": "(acc ++ got).length < max then",
"new": "(acc ++ got).length ≤ max then",
"claim": "a read ends"
},
{
"file": "FsFile/Model",
"def": "readLoop",
"old": "(max - acc.length)",
"new": "max",
"claim": "a read gives at most what was asked for"
},
{
"file": "FsFile/Model",
"def": "read",
"old": "f1.readBuf.drop n, readOff := f1.readOff - n",
"new": "f1.readBuf.drop n, readOff := f1.readOff",
"claim": "the offset follows the read buffer"
},
{
"file": "FsFile/Model",
"def": "read",
"old": "readBuf := f1.readBuf.drop n,",
"new": "readBuf := f1.readBuf,",
"claim": "bytes are given once"
},
{
"file": "FsFile/Model",
"def": "read",
"old": "let f1 := if f.writeBuf.length > 0 then (sync env f).1 else f",
"new": "let f1 := f",
"claim": "a read sees what was written"
},
{
"file": "FsFile/Model",
"def": "read",
"old": "let give := min rb.length n",
"new": "let give := min r.2.2.length n",
"claim": "bytes read ahead are given first"
},
{
"file": "FsFile/Model",
"def": "read",
"old": "readBuf := rb.drop give",
"new": "readBuf := r.2.2.drop give",
"claim": "bytes read ahead are kept"
},
{
"file": "FsFile/Model",
"def": "read",
"old": "f2.readOff + (r.2.2.length - give : Int)",
"new": "f2.readOff + (rb.length - give : Int)",
"claim": "the offset follows the read buffer"
},
{
"file": "FsFile/Model",
"def": "read",
"old": "rb.take give)",
"new": "r.2.2.take give)",
"claim": "a read gives the bytes at the position"
},
{
"file": "FsFile/Model",
"def": "seek",
"old": "if f.writeBuf.length > 0 then (sync env f).1 else f",
"new": "f",
"claim": "pending bytes are written before the position moves"
},
{
"file": "FsFile/Model",
"def": "seek",
"old": "≥ off then",
"new": "≥ off - 1 then",
"claim": "a seek within the read buffer"
},
{
"file": "FsFile/Model",
"def": "seek",
"old": "readOff := f1.readOff - off }, true)",
"new": "readOff := f1.readOff }, true)",
"claim": "the offset follows the read buffer"
},
{
"file": "FsFile/Model",
"def": "seek",
"old": "then off - f1.readOff else off",
"new": "then off + f1.readOff else off",
"claim": "a relative seek starts at the user's position"
},
{
"file": "FsFile/Model",
"def": "seek",
"old": "seekSys { f1 with readBuf := [], readOff := 0 } off' frm",
"new": "seekSys { f1 with readOff := 0 } off' frm",
"claim": "a seek forgets what was read ahead"
},
{
"file": "FsFile/Model",
"def": "seek",
"old": "seekSys { f1 with readBuf := [], readOff := 0 } off' frm",
"new": "seekSys { f1 with readBuf := [], readOff := 0 } off frm",
"claim": "a relative seek starts at the user's position"
},
{
"file": "FsFile/Model",
"def": "target",
"old": "| .end => f.content.length + off",
"new": "| .end => f.content.length - off",
"claim": "a seek from the end"
},
{
"file": "FsFile/Model",
"def": "target",
"old": "| .cur => f.pos + off",
"new": "| .cur => off",
"claim": "a relative seek"
},
{
"file": "FsFile/Model",
"def": "writeLoop",
"old": "(bs.drop wrote) (offset + wrote)",
"new": "(bs.drop wrote) wrote",
"claim": "a write reports how much was written"
},
{
"file": "FsFile/Model",
"def": "writeLoop",
"old": "_hc : full ∧ res ∧ bs.drop wrote ≠ []",
"new": "_hc : full ∧ res = false ∧ bs.drop wrote ≠ []",
"claim": "FULLBUF writes everything"
},
{
"file": "FsFile/Model",
"def": "readBytesLoop",
"old": "acc'.length > maxRead then some .tooBig",
"new": "acc'.length ≥ maxRead then some .tooBig",
"claim": "a file of exactly the limit is read"
},
{
"file": "FsFile/Model",
"def": "readBytesLoop",
"old": "if maxRead ≠ 0 ∧ acc'.length > maxRead",
"new": "if acc'.length > maxRead",
"claim": "no limit when it is 0"
},
{
"file": "FsFile/Model",
"def": "writeBytes",
"old": "(if append then old.getD [] else []) append 0",
"new": "(old.getD []) append 0",
"claim": "without APPEND the old bytes go"
},
{
"file": "FsFile/Model",
"def": "writeBytes",
"old": "(buf.take left) true",
"new": "(buf.take left) false",
"claim": "all bytes are written"
},
{
"file": "FsFile/Model",
"def": "writeBytes",
"old": "if writeLen > 0 then some writeLen else strlen buf",
"new": "strlen buf",
"claim": "the length given counts"
},
{
"file": "FsFile/Model",
"def": "copyLoop",
"old": "copyLoop es ed cb fuel (i + 1) r.1 w.1",
"new": "copyLoop es ed cb fuel (i + 1) r.1 d",
"claim": "each block is copied"
},
{
"file": "FsFile/Model",
"def": "copyLoop",
"old": "copyLoop es ed cb fuel (i + 1) r.1 w.1",
"new": "copyLoop es ed cb fuel (i + 1) s w.1",
"claim": "each block is copied once"
},
{
"file": "FsFile/Model",
"def": "copyLoop",
"old": "else some (r.1, w.1, false)",
"new": "else some (r.1, w.1, true)",
"claim": "a stopped copy is not a success"
},
{
"file": "FsFile/Model",
"def": "copyLoop",
"old": "else some (r.1, d, r.2.1)",
"new": "else some (r.1, d, true)",
"claim": "a failed read is not a success"
},
{
"file": "FsFile/Model",
"def": "copyFile",
"old": "fs.set new (some (close w.ed d))",
"new": "fs.set old (some (close w.ed d))",
"claim": "the source is not changed"
},
{
"file": "FsFile/Model",
"def": "copy",
"old": "if overwrite = false ∧ (fs new).isSome then some (fs, false)\n",
"new": "if overwrite = true ∧ (fs new).isSome then some (fs, false)\n",
"claim": "no overwriting unless asked"
},
{
"file": "FsFile/Model",
"def": "copy",
"old": "if res = false ∧ overwrite = false then",
"new": "if res = false ∧ overwrite = true then",
"claim": "a failed copy is removed"
},
{
"file": "FsFile/Model",
"def": "copy",
"old": "(deleteFile w.unlinkNew fs' new).1",
"new": "(deleteFile w.unlinkNew fs' old).1",
"claim": "a failed copy never removes the source"
},
{
"file": "FsFile/Model",
"def": "move",
"old": "| some (fs', true) => some (deleteFile w.unlinkOld fs' old)",
"new": "| some (fs', true) => some (deleteFile w.unlinkOld fs' new)",
"claim": "the original is deleted, not the copy"
},
{
"file": "FsFile/Model",
"def": "move",
"old": "| some (fs', true) => some (deleteFile w.unlinkOld fs' old)",
"new": "| some (fs', true) => some (fs', true)",
"claim": "success means the original is gone"
},
{
"file": "FsFile/Model",
"def": "move",
"old": "| some (fs', false) =>\n        if overwrite = false then some ((deleteFile w.unlinkNew fs' new).1, false)",
"new": "| some (fs', false) =>\n        if overwrite = false then some ((deleteFile w.unlinkNew fs' old).1, false)",
"claim": "a failed move keeps the original"
},
{
"file": "FsFile/Model",
"def": "move",
"old": "if overwrite = false ∧ (fs new).isSome then some (fs, false)\n",
"new": "if (fs old).isNone then some (fs, false)\n",
"claim": "no overwriting unless asked"
}
]