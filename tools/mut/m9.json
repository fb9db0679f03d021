[
{"file":"Decimal/Model","def":"reduceLoop","old":"num.tmod 10 ≠ 0","new":"num.tmod 10 = 1","claim":"C24/C25: reduce drops only zero digits"},
{"file":"Decimal/Model","def":"transform","old":"expInt64 10 (nd - d.nd)","new":"expInt64 10 (nd - d.nd - 1)","claim":"C24/C25: alignment scales by the right power"},
{"file":"Decimal/Model","def":"prepmath","old":"max t1.nd t2.nd","new":"min t1.nd t2.nd","claim":"C25: add/sub exact"},
{"file":"Decimal/Model","def":"prepLoop","old":"if fin then some (.truncation, t1, t2) else prepLoop","new":"if fin then some (.success, t1, t2) else prepLoop","claim":"C25: success means exact"},
{"file":"Decimal/Model","def":"subtract","old":"t2.num > 0 ∧ t1.num < i64min + t2.num","new":"t2.num > 0 ∧ t1.num < i64min","claim":"C25: overflow of subtraction is reported"},
{"file":"Decimal/Model","def":"addInt64","old":"num2 > 0 ∧ num1 > i64max - num2","new":"num2 > 0 ∧ num1 > i64max","claim":"C25: overflow of addition is reported"},
{"file":"Decimal/Model","def":"cmpStep","old":"transform d2 nd","new":"transform d2 (nd - 1)","claim":"C24: both arguments at the same scale"},
{"file":"Decimal/Model","def":"cmp","old":"then some 1\n  else if t1.num < t2.num","new":"then some 1\n  else if t1.num ≤ t2.num","claim":"C24: equal numbers compare equal"},
{"file":"Decimal/Model","def":"multiply","old":"if i ≠ 0 ∨ prv = .truncation then","new":"if prv = .truncation then","claim":"C25: product digits dropped are reported"},
{"file":"Decimal/Model","def":"multiply","old":"(nd * 2) % 256","new":"nd % 256","claim":"C25: decimals of the product"},
{"file":"Decimal/Model","def":"divide","old":"(if rv = .truncation then .truncation else .success)\n","new":".success\n","claim":"C55: truncation of the remainder is reported"},
{"file":"Decimal/Model","def":"fitLoop","old":"(if r = .truncation then .truncation else arv)","new":"arv","claim":"C55: truncation while fitting is reported"},
{"file":"Decimal/Model","def":"divide","old":"chk (dnum + afterdec)","new":"chk (dnum - afterdec)","claim":"C55: quotient value"},
{"file":"Decimal/Model","def":"divInt64","old":"if num.tmod denom ≠ 0 then .truncation","new":"if num.tmod denom > 0 then .truncation","claim":"C55/C25: negative remainder is truncation"}
]
