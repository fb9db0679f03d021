[
{"file":"Num/Model","def":"eatWs","old":"eatWs s (len - 1)","new":"eatWs s len","claim":"C22: white space counts against the length"},
{"file":"Num/Model","def":"sign","old":"c == 45","new":"c == 43","claim":"C22: minus negates"},
{"file":"Num/Model","def":"digit","old":"c ≤ 57 then","new":"c < 57 then","claim":"C22: nine is a digit"},
{"file":"Num/Model","def":"digit","old":"c.toNat - 65 + 10","new":"c.toNat - 65 + 9","claim":"C22: value of upper case digits"},
{"file":"Num/Model","def":"u64Loop","old":"digit c ≥ base","new":"digit c > base","claim":"C22: digits are below the base"},
{"file":"Num/Model","def":"u64Loop","old":"decide (v < ret)","new":"decide (v ≤ ret)","claim":"C22: overflow is not spurious (leading zeros)"},
{"file":"Num/Model","def":"u64Loop","old":"u64Loop base s len v (","new":"u64Loop base s (len + 1) v (","claim":"C22: reading stays inside the length"},
{"file":"Num/Model","def":"toUint64Int","old":"base > 36","new":"base > 35","claim":"C22: base 36 is valid"},
{"file":"Num/Model","def":"toUint64Int","old":"p.length = s.length","new":"p.length + 1 = s.length","claim":"C22: one digit is a number"},
{"file":"Num/Model","def":"autoBase","old":"then 8 else 10","new":"then 10 else 10","claim":"C22: leading zero is octal"},
{"file":"Num/Model","def":"toUint64Ex","old":"(w64 - val) % w64","new":"w64 - 1 - val","claim":"C22: two's complement"},
{"file":"Num/Model","def":"toInt64Ex","old":"neg ∧ uval > 9223372036854775807 + 1","new":"neg ∧ uval > 9223372036854775807","claim":"C23: INT64_MIN is accepted"},
{"file":"Num/Model","def":"toInt64Ex","old":"¬ neg ∧ uval > 9223372036854775807","new":"¬ neg ∧ uval > 9223372036854775808","claim":"C23: 2^63 overflows"},
{"file":"Num/Model","def":"toUint32Ex","old":"u > 4294967295 then","new":"u > 4294967296 then","claim":"C23: 2^32 overflows"},
{"file":"Num/Model","def":"toInt32Ex","old":"i < -2147483648","new":"i ≤ -2147483648","claim":"C23: INT32_MIN is accepted"}
]
