[
{"file":"PatMatch/Model","def":"rangeClose","old":"i = 0 ∨ (i = 1","new":"i = 1 ∨ (i = 1","claim":"C21: a bracket may begin with ]"},
{"file":"PatMatch/Model","def":"rangeClose","old":"(i + 1) (!esc)","new":"(i + 1) true","claim":"C21: equivalent on well formed brackets (escaped backslash excluded)"},
{"file":"PatMatch/Model","def":"escapable","old":"c = 63 ||","new":"","claim":"C21: ? can be escaped"},
{"file":"PatMatch/Model","def":"chrEq","old":"toLower a == toLower b","new":"toLower a == b","claim":"C21: case-insensitive comparison"},
{"file":"PatMatch/Model","def":"bracket","old":"i = start ∨ i = k - 1","new":"i = start ∨ i = k","claim":"C21: a trailing dash is literal"},
{"file":"PatMatch/Model","def":"bracket","old":"sgn x < sgn (q[i + 1]?.getD 0)","new":"sgn x < sgn (q[i + 1]?.getD 0) - 1","claim":"C21: ranges include everything between the ends"},
{"file":"PatMatch/Model","def":"bracket","old":"if i = start then if x = c2","new":"if i = start + 1 then if x = c2","claim":"C21: a leading ] is literal"},
{"file":"PatMatch/Model","def":"pm","old":"| .hit => if neg then false else pm ci (p.drop (k + 1)) s","new":"| .hit => pm ci (p.drop (k + 1)) s","claim":"C21: negated sets"},
{"file":"PatMatch/Model","def":"pm","old":"List.range (s.length + 1)","new":"List.range s.length","claim":"C21: * matches the whole string"},
{"file":"PatMatch/Model","def":"pm","old":"if x = c2 then pm ci p s else false","new":"pm ci p s","claim":"C21: an escaped character must be present"},
{"file":"PatMatch/Model","def":"pm","old":"else if c = 93 then false","new":"","claim":"C21: a stray ] is an error"},
{"file":"PatMatch/Model","def":"pm","old":"| [], s => s.isEmpty","new":"| [], _ => true","claim":"C21: the whole string is matched"}
]
