[
{"file":"Utf8/Model","def":"isContinue","old":"b ≤ 0xBF","new":"b < 0xBF","claim":"C19: BF is a continuation byte"},
{"file":"Utf8/Model","def":"byteWidth","old":"0xC2 ≤ b","new":"0xC0 ≤ b","claim":"C19: C0 and C1 start no character (equivalent: still rejected as overlong)"},
{"file":"Utf8/Model","def":"byteWidth","old":"b ≤ 0xF4","new":"b ≤ 0xF3","claim":"C19: plane 16 decodes"},
{"file":"Utf8/Model","def":"cpWidth","old":"cp ≤ 0x7FF then 2","new":"cp ≤ 0x800 then 2","claim":"C19: U+0800 takes three bytes"},
{"file":"Utf8/Model","def":"isValidCp","old":"cp ≤ 0xDFFF","new":"cp < 0xDFFF","claim":"C19: surrogates are rejected"},
{"file":"Utf8/Model","def":"checkCont","old":"checkCont s n (i + 1)","new":"checkCont s n i","claim":"C19: every continuation byte is checked"},
{"file":"Utf8/Model","def":"getCp","old":"if width ≠ cpWidth mycp then some (.error .overlong)","new":"if width < cpWidth mycp then some (.error .overlong)","claim":"C19: overlong forms are rejected"},
{"file":"Utf8/Model","def":"getCp","old":"(c0.toNat &&& 0x07) <<< 18","new":"(c0.toNat &&& 0x03) <<< 18","claim":"C19: four byte forms decode"},
{"file":"Utf8/Model","def":"getCp","old":"s.drop width","new":"s.drop (width - 1)","claim":"C19: decoding consumes the whole form"},
{"file":"Utf8/Model","def":"fromCp","old":"width > size","new":"width > size + 1","claim":"C19: encoding stays inside the buffer"},
{"file":"Utf8/Model","def":"fromCp","old":"0xE0 ||| (cp >>> 12","new":"0xE0 ||| (cp >>> 11","claim":"C19: three byte forms"},
{"file":"Utf8/Model","def":"validateLoop","old":"validateLoop fuel next (len + 1)","new":"validateLoop fuel next len","claim":"C20: the count is the number of code points"},
{"file":"Utf8/Model","def":"cpAtLoop","old":"if i = idx","new":"if i + 1 = idx","claim":"C20: cp_at returns the code point at the index"},
{"file":"Utf8/Model","def":"cpAt","old":"if i ≠ idx","new":"if i + 1 < idx","claim":"C20: an index past the end is an error"},
{"file":"Utf8/Model","def":"skipCont","old":"skipCont s else some (c :: s)","new":"skipCont s else some s","claim":"C20: next_chr moves by one character"}
]
