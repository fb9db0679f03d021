[
{"file":"Bincodec/Model","def":"b64Adder","old":"len % wrap = 0","new":"len % wrap = 1","claim":"C15: a newline every wrap characters"},
{"file":"Bincodec/Model","def":"b64EncodeSize","old":"ret + (ret / wrap - 1)","new":"ret + (ret / wrap - 2)","claim":"C15: the predicted size is enough"},
{"file":"Bincodec/Model","def":"b64EncLoop","old":"let tmp := a.toNat <<< 16 ||| b.toNat <<< 8\n","new":"let tmp := a.toNat <<< 8 ||| b.toNat\n","claim":"C15: two trailing bytes encode correctly"},
{"file":"Bincodec/Model","def":"b64DecLoop","old":"inp[inlen - 2]?.map","new":"inp[inlen - 1]?.map","claim":"C15: with one pad two bytes are written"},
{"file":"Bincodec/Model","def":"b64DecLoop","old":"if w3 ∧ out.length ≥ cap then some []","new":"if w3 ∧ out.length > cap then some []","claim":"C18: at most cap bytes are written"},
{"file":"Bincodec/Model","def":"b64GetDecchar","old":"if idx ≥ inlen then some none\n    else do","new":"if idx > inlen then some none\n    else do","claim":"C18: nothing past the input is read"},
{"file":"Bincodec/Model","def":"b64DecodeSize","old":"inlen / 4 * 3","new":"inlen / 5 * 3","claim":"C15: decode_alloc reserves enough"},
{"file":"Bincodec/Model","def":"b32EncodeSize","old":"if ret % 8 ≠ 0 then ret + (8 - ret % 8) else ret","new":"ret","claim":"C16: the predicted size is enough"},
{"file":"Bincodec/Model","def":"b32Char","old":"j * 5 > bytes * 8","new":"j * 5 > bytes * 8 + 5","claim":"C16: padding characters"},
{"file":"Bincodec/Model","def":"b32Group","old":"35 - j * 5","new":"30 - j * 5","claim":"C16: decode inverts encode"},
{"file":"Bincodec/Model","def":"b32Decode","old":"cap < b32DecodeSize inlen","new":"cap + 1 < b32DecodeSize inlen","claim":"C18: base32 never writes past the output"},
{"file":"Bincodec/Model","def":"hexAdd","old":"some (out, 0)","new":"some (out, 1)","claim":"C17: lines of wrap characters"},
{"file":"Bincodec/Model","def":"hexEncLoop","old":"(if rest = [] then 0 else wrap)","new":"wrap","claim":"C17: no newline at the end"},
{"file":"Bincodec/Model","def":"hexValid","old":"c ≤ 102","new":"c ≤ 103","claim":"C17: non-digits are rejected"},
{"file":"Bincodec/Model","def":"hexDecode","old":"cap < inlen / 2","new":"cap < inlen / 3","claim":"C18: hex never writes past the output"},
{"file":"Bincodec/Model","def":"hexDecLoop","old":"hex2dec c1 <<< 4 ||| hex2dec c2","new":"hex2dec c2 <<< 4 ||| hex2dec c1","claim":"C17: decode inverts encode"}
]
