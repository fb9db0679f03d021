[
{"file":"Time/Model","def":"isLeap","old":"year.tmod 400 = 0 ||","new":"","claim":"C26: years divisible by 400 are leap"},
{"file":"Time/Model","def":"mdays","old":"i = 8 ∨ i = 10","new":"i = 7 ∨ i = 10","claim":"C26: month lengths"},
{"file":"Time/Model","def":"normRange","old":"(-num + max).tdiv (max + 1), max","new":"(-num).tdiv (max + 1), max","claim":"C26: negative carry rounds down"},
{"file":"Time/Model","def":"normRange","old":"r.2 > max","new":"r.2 > max + 1","claim":"C26/C27: 60 seconds carry"},
{"file":"Time/Model","def":"stepDays","old":"isLeap (year - 1))","new":"isLeap year)","claim":"C26: times before 1970"},
{"file":"Time/Model","def":"yearLoop","old":"mabs day < stepDays year day","new":"mabs day ≤ stepDays year day","claim":"equivalent in January: month loop finishes"},
{"file":"Time/Model","def":"priorDays","old":"then 11 else month - 1","new":"then 11 else month","claim":"C27: negative days use prior month"},
{"file":"Time/Model","def":"monthLoop","old":"then monthLoop y (m - 1)","new":"then monthLoop y m","claim":"C27: month goes back"},
{"file":"Time/Model","def":"monthLoop","old":"if day < mdays (isLeap y) m ∧ day ≥ 0","new":"if day ≤ mdays (isLeap y) m ∧ day ≥ 0","claim":"C26: day of month valid"},
{"file":"Time/Model","def":"togm","old":"t < 0 ∧ t.tmod 86400 ≠ 0","new":"t < 0","claim":"C26: weekday at midnight before 1970"},
{"file":"Time/Model","def":"rwdaymap","old":"[4, 3, 2, 1, 0, 6, 5]","new":"[4, 3, 2, 1, 0, 5, 6]","claim":"C26: weekday before 1970"},
{"file":"Time/Model","def":"epochLoop","old":"yearDays (isLeap (year - 1))","new":"yearDays (isLeap year)","claim":"C26: roundtrip after 1970"},
{"file":"Time/Model","def":"fromgm","old":"isLeap tm.year","new":"isLeap (tm.year - 1)","claim":"C26: roundtrip after February"},
{"file":"Time/Model","def":"isValidDay","old":"day > days","new":"day ≥ days","claim":"C26: last day of month is valid"},
{"file":"Time/Model","def":"calcYday","old":"tm.day - 1","new":"tm.day","claim":"C26: day of year is 0-based"}
]
