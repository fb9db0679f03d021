[
{
"file": "Getopt/Model",
"def": "validShort",
"old": "c = 45 ∨ c = 61",
"new": "c = 61",
"claim": "a short option cannot be a dash"
},
{
"file": "Getopt/Model",
"def": "validShort",
"old": "33 ≤ c",
"new": "32 ≤ c",
"claim": "a short option cannot be a space"
},
{
"file": "Getopt/Model",
"def": "validLong",
"old": "l.head? = some 45 ∨ l.getLast? = some 45",
"new": "l.head? = some 45",
"claim": "long options do not end with a dash"
},
{
"file": "Getopt/Model",
"def": "validLong",
"old": "61 ∈ l ∨ 34 ∈ l",
"new": "34 ∈ l",
"claim": "no = in long options"
},
{
"file": "Getopt/Model",
"def": "getLong",
"old": "p.1.map Chr.toLower = k.map Chr.toLower",
"new": "p.1 = k",
"claim": "long options ignore case"
},
{
"file": "Getopt/Model",
"def": "append",
"old": "(o.short ≠ 0 ∧ (getShort g o.short).isSome) ∨ (o.long.bind (getLong g)).isSome",
"new": "(o.short ≠ 0 ∧ (getShort g o.short).isSome) ∧ (o.long.bind (getLong g)).isSome",
"claim": "either name taken refuses the option"
},
{
"file": "Getopt/Model",
"def": "append",
"old": "if o.short ≠ 0 then g.shorts ++ [(o.short, o)] else g.shorts",
"new": "g.shorts ++ [(o.short, o)]",
"claim": "options without short name are not in the table of short names"
},
{
"file": "Getopt/Model",
"def": "add",
"old": "(o.short = 0 ∧ o.long = none)",
"new": "(o.short = 0 ∨ o.long = none)",
"claim": "one name suffices"
},
{
"file": "Getopt/Model",
"def": "isTrue",
"old": "Str.eq true s [111, 110]",
"new": "Str.eq false s [111, 110]",
"claim": "ON is true"
},
{
"file": "Getopt/Model",
"def": "convert",
"old": ".boolean, none => some (some (.boolean true))",
"new": ".boolean, none => some (some (.boolean false))",
"claim": "a flag gives true"
},
{
"file": "Getopt/Model",
"def": "convert",
"old": "if r.1 ≠ .success then some none else r.2.map",
"new": "r.2.map",
"claim": "numbers that overflow are refused"
},
{
"file": "Getopt/Model",
"def": "convert",
"old": "(v ++ [0]) v.length 10).bind",
"new": "(v ++ [0]) v.length 16).bind",
"claim": "integers are decimal"
},
{
"file": "Getopt/Model",
"def": "optValue",
"old": "| none => (false, log)",
"new": "| none => (true, log)",
"claim": "a bad value is an error"
},
{
"file": "Getopt/Model",
"def": "verify",
"old": "if o.req ∧ v = none then",
"new": "if o.req ∧ v = none ∧ o.ty ≠ .boolean then",
"claim": "a required value of a boolean is required"
},
{
"file": "Getopt/Model",
"def": "verify",
"old": "if isval then .error .invalidDataType else .ok (none, idx)",
"new": ".ok (none, idx)",
"claim": "a flag with = is an error"
},
{
"file": "Getopt/Model",
"def": "verify",
"old": "if isval then .error .invalidDataType else .ok (none, idx)",
"new": "if isval then .error .invalidDataType else .ok (none, idx + 1)",
"claim": "a flag does not use up the next argument"
},
{
"file": "Getopt/Model",
"def": "verify",
"old": "∧ o.ty = .boolean ∧ ¬ o.req then",
"new": "∧ o.ty = .boolean then",
"claim": "a boolean with required value takes it"
},
{
"file": "Getopt/Model",
"def": "verify",
"old": "else if v ≠ none ∧ ¬ isval then .ok (v, idx + 1)",
"new": "else if v ≠ none then .ok (v, idx + 1)",
"claim": "a joined value uses up no further argument"
},
{
"file": "Getopt/Model",
"def": "verify",
"old": "else if v ≠ none ∧ ¬ isval then .ok (v, idx + 1)\n",
"new": "",
"claim": "a separate value uses up an argument"
},
{
"file": "Getopt/Model",
"def": "apply",
"old": "(if r.1 then none else some .invalidDataType, ⟨idx, r.2⟩)",
"new": "(none, ⟨idx, r.2⟩)",
"claim": "a callback can refuse"
},
{
"file": "Getopt/Model",
"def": "long",
"old": "| none => some (some .invalidOpt, s)",
"new": "| none => some (none, s)",
"claim": "unknown long options are errors"
},
{
"file": "Getopt/Model",
"def": "option",
"old": "(w.drop 2) v",
"new": "(w.drop 1) v",
"claim": "the long name is after two dashes"
},
{
"file": "Getopt/Model",
"def": "isOption",
"old": "w.head? = some 45",
"new": "w.head? = some 45 && w.length > 1",
"claim": "a lone dash is an (incomplete) option"
},
{
"file": "Getopt/Model",
"def": "split",
"old": "if a = [] ∨ b = [] then .error .missingValue else .ok (a, some b, true)",
"new": ".ok (a, some b, true)",
"claim": "an empty joined value is an error"
},
{
"file": "Getopt/Model",
"def": "split",
"old": "      | _ => .error .missingValue",
"new": "      | a :: b :: _ => .ok (a, some b, true)\n      | _ => .error .missingValue",
"claim": "several = are an error"
},
{
"file": "Getopt/Model",
"def": "split",
"old": ".ok (a, some b, true)",
"new": ".ok (a, some b, false)",
"claim": "joined values are marked"
},
{
"file": "Getopt/Model",
"def": "split",
"old": "next.filter fun n => !isOption n",
"new": "next",
"claim": "the next option is no value"
},
{
"file": "Getopt/Model",
"def": "parseLoop",
"old": "parseLoop cb g argv f (i + 1) done false log",
"new": "parseLoop cb g argv f (i + 1) done true log",
"claim": "-- ends the options"
},
{
"file": "Getopt/Model",
"def": "parseLoop",
"old": "if done then some ⟨some .invalidOrder, some i, log⟩\n        else ",
"new": "",
"claim": "options after other arguments are errors"
},
{
"file": "Getopt/Model",
"def": "parseLoop",
"old": "| (some e, s) => some ⟨some e, some i, s.log⟩",
"new": "| (some e, s) => some ⟨some e, some s.idx, s.log⟩",
"claim": "the option is reported, not its value"
},
{
"file": "Getopt/Model",
"def": "parseLoop",
"old": "parseLoop cb g argv f (i + 1) true proc (log ++ [.nonopt i w])",
"new": "parseLoop cb g argv f (i + 1) done proc (log ++ [.nonopt i w])",
"claim": "another argument ends the options"
},
{
"file": "Getopt/Model",
"def": "parseLoop",
"old": "else if !g.nonopt then some ⟨some .nonOption, some i, log⟩\n      else if",
"new": "else if",
"claim": "without callback other arguments are errors"
},
{
"file": "Getopt/Model",
"def": "parseLoop",
"old": "if proc ∧ w = [45, 45] then",
"new": "if w = [45, 45] then",
"claim": "a second -- is an argument"
},
{
"file": "Getopt/Model",
"def": "parse",
"old": "(argv.length + 1) 1 false true []",
"new": "(argv.length + 1) 0 false true []",
"claim": "the program name is skipped"
}
]