[
{"file":"Bits/Model","def":"addBit","old":"let pos := 7 - b.nbits % 8\n  let bytes := if pos = 7","new":"let pos := b.nbits % 8\n  let bytes := if pos = 0","claim":"C28: most significant bit first"},
{"file":"Bits/Model","def":"fill","old":"7 - b.nbits % 8 = 7 ∧ len ≥ 8","new":"len ≥ 8","claim":"C28: whole bytes only at byte boundaries"},
{"file":"Bits/Model","def":"fill","old":"if bit then 255 else 0","new":"if bit then 1 else 0","claim":"C28: fill with ones"},
{"file":"Bits/Model","def":"truncate","old":"last &&& mask","new":"last","claim":"C28: truncated bits must be cleared"},
{"file":"Bits/Model","def":"truncate","old":"1 <<< (8 - part)","new":"1 <<< (7 - part)","claim":"C28: truncation keeps the right bits"},
{"file":"Bits/Model","def":"updateBit","old":"byte &&& ~~~m","new":"byte ^^^ m","claim":"C28: updating to zero"},
{"file":"Bits/Model","def":"setBit","old":"(idx - b.nbits)","new":"(idx - b.nbits + 1)","claim":"C28: set_bit position"},
{"file":"Bits/Model","def":"padBits","old":"8 - rem","new":"rem","claim":"C28: padding to a byte"},
{"file":"Bits/Model","def":"add","old":"if pad = .after then fill b false np","new":"if pad = .after then fill b true np","claim":"C28: padding is zero"},
{"file":"Bits/Model","def":"addBytes","old":"(8 - left)) left","new":"left) left","claim":"C28: partial bytes use the high bits"},
{"file":"Bits/Model","def":"shiftBytes","old":"b.toNat >>> (8 - skip)","new":"b.toNat >>> (7 - skip)","claim":"C29: unaligned reads"},
{"file":"Bits/Model","def":"len","old":"p.nbits - p.offset","new":"p.nbits","claim":"C29: reads succeed iff enough bits remain"},
{"file":"Bits/Model","def":"readInt","old":"(w64 - mask)) % w64","new":"(w64 - mask + 1)) % w64","claim":"C29: two's complement value"},
{"file":"Bits/Model","def":"readStrdup","old":"if b then 49 else 48","new":"if b then 48 else 49","claim":"C29: string of the bits"},
{"file":"Bits/Model","def":"rangeLoop","old":"if n < max then","new":"if n ≤ max then","claim":"C29: runs bounded by max"},
{"file":"Bits/Model","def":"append","old":"nbits := b.nbits, ","new":"","claim":"C29: appended bits become readable"}
]
