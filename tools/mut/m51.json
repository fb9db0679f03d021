[
{
"file": "Re/CompModel",
"def": "setUnion",
"old": "asr := p.asr ||| a }) ++ s2",
"new": "asr := p.asr }) ++ s2",
"claim": "assertions of the skipped part forgotten"
},
{
"file": "Re/CompModel",
"def": "setUnion",
"old": "asr := p.asr ||| a }",
"new": "asr := a }",
"claim": "own assertions overwritten"
},
{
"file": "Re/CompModel",
"def": "setUnion",
"old": "++ s2",
"new": "++ s2.drop 1",
"claim": "the first position of the second set lost"
},
{
"file": "Re/CompModel",
"def": "nullable",
"old": "nullable l && nullable r",
"new": "nullable l || nullable r",
"claim": "a sequence counts as empty when one part is"
},
{
"file": "Re/CompModel",
"def": "nullable",
"old": "nullable l || nullable r",
"new": "nullable l && nullable r",
"claim": "an alternative needs both parts empty"
},
{
"file": "Re/CompModel",
"def": "nullable",
"old": "lo == 0 || nullable x",
"new": "lo == 0",
"claim": "x+ with empty x not empty"
},
{
"file": "Re/CompModel",
"def": "nullable",
"old": "lo == 0 || nullable x",
"new": "nullable x",
"claim": "x* not empty"
},
{
"file": "Re/CompModel",
"def": "nullable",
"old": "| .asr _ => true",
"new": "| .asr _ => false",
"claim": "an assertion reads a character"
},
{
"file": "Re/CompModel",
"def": "emptyAsr",
"old": "emptyAsr l ||| emptyAsr r",
"new": "emptyAsr r",
"claim": "assertions of the left part dropped"
},
{
"file": "Re/CompModel",
"def": "emptyAsr",
"old": "| .asr a => a",
"new": "| .asr _ => 0",
"claim": "assertions dropped on empty paths"
},
{
"file": "Re/CompModel",
"def": "emptyAsr",
"old": "if nullable l then emptyAsr l else if nullable r then emptyAsr r else 0",
"new": "if nullable r then emptyAsr r else if nullable l then emptyAsr l else 0",
"claim": "the other side of an alternative is taken"
},
{
"file": "Re/CompModel",
"def": "emptyAsr",
"old": "if nullable l then emptyAsr l else if nullable r then emptyAsr r else 0",
"new": "if nullable l then emptyAsr l else 0",
"claim": "assertions of the right alternative dropped"
},
{
"file": "Re/CompModel",
"def": "emptyAsr",
"old": "if nullable x then emptyAsr x else 0",
"new": "0",
"claim": "assertions in a repetition dropped"
},
{
"file": "Re/CompModel",
"def": "first",
"old": "if nullable l then setUnion (first r) (first l) (emptyTags l []) (emptyAsr l) else first l",
"new": "first l",
"claim": "a sequence cannot start with its second part"
},
{
"file": "Re/CompModel",
"def": "first",
"old": "if nullable l then setUnion (first r) (first l) (emptyTags l []) (emptyAsr l) else first l",
"new": "setUnion (first r) (first l) (emptyTags l []) (emptyAsr l)",
"claim": "a sequence may always start with its second part"
},
{
"file": "Re/CompModel",
"def": "first",
"old": "(emptyTags l []) (emptyAsr l) else",
"new": "(emptyTags l []) (emptyAsr r) else",
"claim": "assertions of the wrong part"
},
{
"file": "Re/CompModel",
"def": "first",
"old": "setUnion (first l) (first r) [] 0",
"new": "first l",
"claim": "only the first alternative"
},
{
"file": "Re/CompModel",
"def": "last",
"old": "if nullable r then setUnion",
"new": "if nullable l then setUnion",
"claim": "the wrong part is asked whether it is empty"
},
{
"file": "Re/CompModel",
"def": "last",
"old": "(emptyTags r []) (emptyAsr r) else last r",
"new": "(emptyTags r []) 0 else last r",
"claim": "(ab$) without the end of line"
},
{
"file": "Re/CompModel",
"def": "last",
"old": "setUnion (last l) (last r) [] 0",
"new": "last r",
"claim": "only the second alternative can end"
},
{
"file": "Re/CompModel",
"def": "skipSame",
"old": "some p.pos = prev then",
"new": "prev ≠ none then",
"claim": "only the first position gets a transition"
},
{
"file": "Re/CompModel",
"def": "mkTrans1",
"old": "lo := a.lo, hi := a.hi",
"new": "lo := b.lo, hi := b.hi",
"claim": "the character of the destination is read"
},
{
"file": "Re/CompModel",
"def": "mkTrans1",
"old": "asr := a.asr ||| b.asr",
"new": "asr := a.asr",
"claim": "assertions before the second character dropped"
},
{
"file": "Re/CompModel",
"def": "mkTrans1",
"old": "asr := a.asr ||| b.asr",
"new": "asr := b.asr",
"claim": "assertions after the first character dropped"
},
{
"file": "Re/CompModel",
"def": "mkTrans1",
"old": "dst := b.pos",
"new": "dst := a.pos",
"claim": "transition to itself"
},
{
"file": "Re/CompModel",
"def": "edges",
"old": "mkTrans (last l) (first r) ++",
"new": "mkTrans (first l) (last r) ++",
"claim": "first and last exchanged"
},
{
"file": "Re/CompModel",
"def": "edges",
"old": "(if hi = none then mkTrans (last x) (first x) else [])",
"new": "(if hi ≠ none then mkTrans (last x) (first x) else [])",
"claim": "? repeats and * does not"
},
{
"file": "Re/CompModel",
"def": "edges",
"old": "(if hi = none then mkTrans (last x) (first x) else [])",
"new": "mkTrans (last x) (first x)",
"claim": "? repeats"
},
{
"file": "Re/CompModel",
"def": "edges",
"old": "(if hi = none then mkTrans (last x) (first x) else [])",
"new": "[]",
"claim": "* does not repeat"
},
{
"file": "Re/CompModel",
"def": "edges",
"old": "| .alt l r => edges l ++ edges r",
"new": "| .alt l r => edges l",
"claim": "the second alternative has no transitions"
},
{
"file": "Re/CompModel",
"def": "pairs",
"old": ").length * p2.length",
"new": ").length",
"claim": "room for one transition per position only"
},
{
"file": "Re/CompModel",
"def": "counts",
"old": "pairs (last l) (first r) q + (counts l q + counts r q)",
"new": "counts l q + counts r q",
"claim": "no room for the joints of a sequence"
},
{
"file": "Re/CompModel",
"def": "counts",
"old": "(if hi = none then pairs (last x) (first x) q else 0)",
"new": "0",
"claim": "no room for the way back"
},
{
"file": "Re/CompModel",
"def": "root",
"old": ".cat x (.chars [(0, 0)] n)",
"new": ".cat x (.chars [(0, 0)] (n - 1))",
"claim": "the final state shares a position"
},
{
"file": "Re/CompModel",
"def": "build",
"old": "final := n }",
"new": "final := n - 1 }",
"claim": "the wrong state is final"
},
{
"file": "Re/CompModel",
"def": "build",
"old": "asr := p.asr }",
"new": "asr := 0 }",
"claim": "assertions at the start ignored"
},
{
"file": "Re/CompModel",
"def": "copy",
"old": "(.chars rs (p + add), rs.length)",
"new": "(.chars rs p, rs.length)",
"claim": "copies share positions"
},
{
"file": "Re/CompModel",
"def": "copy",
"old": "(.cat a.1 b.1, a.2 + b.2)",
"new": "(.cat a.1 b.1, a.2)",
"claim": "literals of the right part not counted"
},
{
"file": "Re/CompModel",
"def": "copy",
"old": "(.iter a.1 lo hi, a.2)",
"new": "(.iter a.1 lo none, a.2)",
"claim": "a copied ? becomes *"
},
{
"file": "Re/CompModel",
"def": "after",
"old": "| some t => .cat t s",
"new": "| some t => .alt t s",
"claim": "copies as alternatives"
},
{
"file": "Re/CompModel",
"def": "both",
"old": "| some t, some s => .cat t s",
"new": "| some t, some _ => t",
"claim": "the optional copies lost"
},
{
"file": "Re/CompModel",
"def": "seq1",
"old": "(add + c.2) add",
"new": "(add + c.2) (add + c.2)",
"claim": "what follows is moved one copy too far"
},
{
"file": "Re/CompModel",
"def": "seq1",
"old": "(add + c.2) add",
"new": "add add",
"claim": "all copies at the same place"
},
{
"file": "Re/CompModel",
"def": "seq2",
"old": ".alt .empty (before c.1 acc)",
"new": "before c.1 acc",
"claim": "optional copies required"
},
{
"file": "Re/CompModel",
"def": "seq2",
"old": "(add + c.2) add",
"new": "add add",
"claim": "optional copies at the same place"
},
{
"file": "Re/CompModel",
"def": "expandIter",
"old": "seq1 x lo none add add",
"new": "seq1 x (lo - 1) none add add",
"claim": "one copy too few"
},
{
"file": "Re/CompModel",
"def": "expandIter",
"old": "let s := Ast.iter c.1 0 none",
"new": "let s := Ast.iter c.1 1 none",
"claim": "{2,} needs three"
},
{
"file": "Re/CompModel",
"def": "expandIter",
"old": "seq2 x (m - lo) none",
"new": "seq2 x m none",
"claim": "{2,3} allows five"
},
{
"file": "Re/CompModel",
"def": "expandIter",
"old": "(after a.1 s, a.2.1)",
"new": "(after a.1 s, a.2.2)",
"claim": "what follows {2,} overlaps the last copy"
},
{
"file": "Re/CompModel",
"def": "counted",
"old": "decide (lo > 1) ||",
"new": "decide (lo > 2) ||",
"claim": "{2,} not expanded"
},
{
"file": "Re/CompModel",
"def": "counted",
"old": "decide (m > 1)",
"new": "decide (m > 2)",
"claim": "{1,2} not expanded"
},
{
"file": "Re/CompModel",
"def": "expand",
"old": "let total := a.2.total + (r.2 - e.add)",
"new": "let total := e.total + (r.2 - e.add)",
"claim": "offset of inner copies forgotten"
},
{
"file": "Re/CompModel",
"def": "expand",
"old": "add := if d = 0 then total else r.2",
"new": "add := r.2",
"claim": "offset not carried on at the top"
},
{
"file": "Re/CompModel",
"def": "expand",
"old": "add := if counted lo hi then 0 else e.add",
"new": "add := e.add",
"claim": "positions moved twice"
},
{
"file": "Re/CompModel",
"def": "expand",
"old": "let b := expand d r a.2\n    (.cat a.1 b.1, b.2)",
"new": "let b := expand d r e\n    (.cat a.1 b.1, b.2)",
"claim": "what follows is not moved"
},
{
"file": "Re/CompModel",
"def": "compile",
"old": "max (n + e.2.total) (maxPos e.1)",
"new": "max n (maxPos e.1)",
"claim": "the final state overlaps the last position"
}
]