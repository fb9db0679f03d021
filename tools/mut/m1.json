[
{"file":"Sort/Model","def":"merge","old":"if cmp x y ≤ 0 then x ::","new":"if cmp x y < 0 then x ::","claim":"C01: equal elements keep their order"},
{"file":"Sort/Model","def":"mergeLeftSize","old":"if n > 2 ∧ n % 2 ≠ 0 then n / 2 + 1 else n / 2","new":"n / 2","claim":"C01: no element lost (odd lengths drop one)"},
{"file":"Sort/Model","def":"halve","old":"else halve cmp a key (m + 1) right m e","new":"else halve cmp a key (m + 2) right m e","claim":"C03: search finds an existing element"},
{"file":"Sort/Model","def":"scanBack","old":"if cmp key x ≠ 0 then some (mid + 1)","new":"if cmp key x ≠ 0 then some mid","claim":"C03: stable search returns the first equal index"},
{"file":"Sort/Model","def":"binaryIdx (shortcut)","old":"some (some (true, if doMatch then n - 1 else n))","new":"some (some (true, n))","claim":"C03: index in range"},
{"file":"Sort/Model","def":"binaryIdx (insert)","old":"else some (true, if eq > 0 then mid + 1 else mid)","new":"else some (true, mid)","claim":"C04: insertion keeps the array sorted"},
{"file":"Qsort/Model","def":"insertDown","old":"if c > 0 then\n        match swap? a (base + k + 1)","new":"if c < 0 then\n        match swap? a (base + k + 1)","claim":"C02: sorted result"},
{"file":"Qsort/Model","def":"insertion","old":"insertLoop cmp a base n 1","new":"insertLoop cmp a base (n - 1) 1","claim":"C02: last element sorted too"},
{"file":"Qsort/Model","def":"splitStep","old":"let s := min (r2 - r1) (e - (r2 + 1))","new":"let s := min (r2 - r1) (e - r2)","claim":"C02: right block exchange"},
{"file":"Qsort/Model","def":"splitStep","old":"let s := min (l1 - base) (l2 - l1)","new":"let s := l1 - base","claim":"C02: left block exchange when more equals than smaller"},
{"file":"Qsort/Model","def":"qsortF","old":"if l > 1 then qsortF cmp fuel a base l","new":"if l > 2 then qsortF cmp fuel a base l","claim":"C02: two-element left part sorted"},
{"file":"Qsort/Model","def":"qsortF","old":"qsortF cmp fuel a (base + n - r) r","new":"qsortF cmp fuel a (base + l) r","claim":"C02: right part starts after the equal block"},
{"file":"MList/Model","def":"shiftData","old":"memmove d 0 d.start d.elements","new":"memmove d 0 d.start (d.elements - 1)","claim":"C05: compaction keeps all elements"},
{"file":"MList/Model","def":"grow","old":"if d.elements = d.allocated then realloc d (d.allocated * 2)","new":"if d.elements > d.allocated then realloc d (d.allocated * 2)","claim":"C05: no write outside the allocation"},
{"file":"MList/Model","def":"shrink","old":"(shiftData d true)","new":"(shiftData d false)","claim":"C05: shrinking must compact first"},
{"file":"MList/Model","def":"insertRaw","old":"(d.start + (idx + 1)) (d.start + idx) (d.elements - idx)","new":"(d.start + (idx + 1)) (d.start + idx) (d.elements - idx - 1)","claim":"C05: insert shifts the whole tail"},
{"file":"MList/Model","def":"takeAt","old":"if idx = 0 then some { d with start := d.start + 1 }\n            else if","new":"if idx = 0 then some d\n            else if","claim":"C05: take_first removes the first element"},
{"file":"MList/Model","def":"removeRange","old":"{ d with start := d.start + (e + 1) }","new":"{ d with start := d.start + e }","claim":"C05: removing a prefix"},
{"file":"MList/Model","def":"insertAtInt","old":"| some (some _) => some (false, d)","new":"| some (some _) => some (true, d)","claim":"C53: a refused insertion reports failure"},
{"file":"MList/Model","def":"insertEnd","old":"else (sortNow cmp d).map fun d => { d with multi := false }","new":"else some { d with multi := false }","claim":"C06: sorted after a grouped insertion"},
{"file":"MList/Model","def":"insertIdx","old":"if d.sorted && !d.multi then\n    match contents d with\n    | none => none\n    | some l => (Sort","new":"if d.sorted && d.multi then\n    match contents d with\n    | none => none\n    | some l => (Sort","claim":"C06: insertion position on sorted lists"},
{"file":"MList/Model","def":"removeLoop","old":"if cnt = 0 ∧ !all then some (1, d)","new":"if cnt = 0 ∧ all then some (1, d)","claim":"C06/C05: MATCH_ALL removes all"},
{"file":"MList/Model","def":"replaceAt","old":"if idx ≥ d.elements ∨ (d.sorted ∧ ¬ d.multi) then some (false, d)","new":"if idx ≥ d.elements then some (false, d)","claim":"C06: replace_at refused on sorted lists"},
{"file":"MList/Model","def":"convertIdxAt","old":"else if d.elements - 1 = idx then 0\n    else subW (subW d.elements idx) 1","new":"else subW d.elements idx","claim":"C07: stack index reversal"}
]
