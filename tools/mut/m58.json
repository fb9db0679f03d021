[
{
"file": "IniMerge/Model",
"def": "useCur",
"old": "decide (r.flags = 0) && (match",
"new": "(match",
"claim": "the callback is asked only when there are no flags"
},
{
"file": "IniMerge/Model",
"def": "useCur",
"old": "decide (r.flags &&& bit ≠ 0)",
"new": "decide (r.flags &&& bit = 0)",
"claim": "the flag says that the current value stays"
},
{
"file": "IniMerge/Model",
"def": "useCur",
"old": "| some f => f key cur new |",
"new": "| some f => f key new cur |",
"claim": "the callback gets the current value first"
},
{
"file": "IniMerge/Model",
"def": "useCur",
"old": "| none => false)",
"new": "| none => true)",
"claim": "without a callback the new side wins"
},
{
"file": "IniMerge/Model",
"def": "useCur",
"old": "decide (r.flags = 0) && (match",
"new": "decide (r.flags ≠ 0) && (match",
"claim": "the callback decides when there are no flags"
},
{
"file": "IniMerge/Model",
"def": "valEq",
"old": "decide (a.getD [] = b.getD [])",
"new": "decide (a = b)",
"claim": "a value without a text is an empty one"
},
{
"file": "IniMerge/Model",
"def": "direct",
"old": "(kvGet ini key i).getD none",
"new": "(kvGet ini key (i+1)).getD none",
"claim": "the values are taken at their index"
},
{
"file": "IniMerge/Model",
"def": "insertAll",
"old": "List.range (kvLen src key)",
"new": "List.range (kvLen src key - 1)",
"claim": "all values of a key are taken"
},
{
"file": "IniMerge/Model",
"def": "insertAll",
"old": "(kvInsert m key (direct src key j)).2",
"new": "(kvSet m key (direct src key j)).2",
"claim": "all values of a key are taken"
},
{
"file": "IniMerge/Model",
"def": "createMerged",
"old": "create new.ign",
"new": "create false",
"claim": "the merged object ignores blanks as the new one"
},
{
"file": "IniMerge/Model",
"def": "keyNew",
"old": "!kvHas cur key && !kvHas orig key",
"new": "!kvHas cur key || !kvHas orig key",
"claim": "a key comes in only if neither the current nor the original object has it"
},
{
"file": "IniMerge/Model",
"def": "keyNew",
"old": "!kvHas cur key && !kvHas orig key",
"new": "!kvHas cur key",
"claim": "a key that the user removed stays away"
},
{
"file": "IniMerge/Model",
"def": "keyNew",
"old": "!kvHas cur key && !kvHas orig key",
"new": "!kvHas orig key",
"claim": "a key that the user brought in has the values of the user"
},
{
"file": "IniMerge/Model",
"def": "keyNew",
"old": "then insertAll m new key else m",
"new": "then m else m",
"claim": "a key that only the new object has comes in"
},
{
"file": "IniMerge/Model",
"def": "keyCur",
"old": "((!inNew && !inOrig) || (inNew && !inOrig))",
"new": "(!inNew && !inOrig)",
"claim": "a key of the current and the new object has the current values"
},
{
"file": "IniMerge/Model",
"def": "keyCur",
"old": "((!inNew && !inOrig) || (inNew && !inOrig))",
"new": "(inNew && !inOrig)",
"claim": "a key that only the current object has stays"
},
{
"file": "IniMerge/Model",
"def": "keyCur",
"old": "if useCur r 1 none (some key) none = true then insertAll m cur key else m",
"new": "m",
"claim": "the flag keeps a key that the new object does not have any more"
},
{
"file": "IniMerge/Model",
"def": "keyCur",
"old": "if useCur r 1 none (some key) none = true then insertAll m cur key else m",
"new": "insertAll m cur key",
"claim": "a key that the new object does not have any more goes"
},
{
"file": "IniMerge/Model",
"def": "keyCur",
"old": "useCur r 1 none",
"new": "useCur r 2 none",
"claim": "each flag is for its conflict"
},
{
"file": "IniMerge/Model",
"def": "keyCur",
"old": "useCur r 1 none (some key) none",
"new": "useCur r 1 (some key) none none",
"claim": "the callback gets the key as the current value"
},
{
"file": "IniMerge/Model",
"def": "keyCur",
"old": "if ((!inNew && !inOrig) || (inNew && !inOrig)) = true then insertAll m cur key",
"new": "if ((!inNew && !inOrig) || (inNew && !inOrig)) = true then insertAll m new key",
"claim": "the values of the user stay"
},
{
"file": "IniMerge/Model",
"def": "updateKeys",
"old": "kvHas new key && kvHas orig key",
"new": "kvHas new key || kvHas orig key",
"claim": "only keys of all three objects are compared"
},
{
"file": "IniMerge/Model",
"def": "updateKeys",
"old": "(kvKeys cur).filter",
"new": "(kvKeys new).filter",
"claim": "a key that the user removed stays away"
},
{
"file": "IniMerge/Model",
"def": "handleKeys",
"old": "(kvKeys cur).foldl (keyCur",
"new": "(kvKeys new).foldl (keyCur",
"claim": "all keys of the current object are looked at"
},
{
"file": "IniMerge/Model",
"def": "handleKeys",
"old": "((kvKeys new).foldl",
"new": "((kvKeys cur).foldl",
"claim": "all keys of the new object are looked at"
},
{
"file": "IniMerge/Model",
"def": "handleKeys",
"old": "((kvKeys new).foldl (keyNew cur new orig) m)",
"new": "m",
"claim": "keys that only the new object has come in"
},
{
"file": "IniMerge/Model",
"def": "single",
"old": "kvLen cur key > 1 ∨ kvLen new key > 1",
"new": "kvLen cur key > 1 ∧ kvLen new key > 1",
"claim": "keys with several values are merged value by value"
},
{
"file": "IniMerge/Model",
"def": "single",
"old": "kvLen cur key > 1 ∨ kvLen new key > 1",
"new": "kvLen cur key > 1",
"claim": "keys with several values are merged value by value"
},
{
"file": "IniMerge/Model",
"def": "single",
"old": "valEq c o && !valEq c n",
"new": "valEq c o && valEq c n",
"claim": "a value that the user did not change is replaced"
},
{
"file": "IniMerge/Model",
"def": "single",
"old": "valEq c o && !valEq c n",
"new": "!valEq c n",
"claim": "a value that the user changed stays"
},
{
"file": "IniMerge/Model",
"def": "single",
"old": "valEq c o && !valEq c n",
"new": "valEq o n && !valEq c n",
"claim": "a value that the user changed stays"
},
{
"file": "IniMerge/Model",
"def": "single",
"old": "useCur r 2 (some key) c n",
"new": "useCur r 1 (some key) c n",
"claim": "each flag is for its conflict"
},
{
"file": "IniMerge/Model",
"def": "single",
"old": "useCur r 2 (some key) c n",
"new": "useCur r 2 (some key) n c",
"claim": "the callback gets the current value first"
},
{
"file": "IniMerge/Model",
"def": "single",
"old": "then (kvSet m key c).2 else (kvSet m key n).2",
"new": "then (kvSet m key n).2 else (kvSet m key c).2",
"claim": "the callback says that the current value stays"
},
{
"file": "IniMerge/Model",
"def": "single",
"old": "    else (kvSet m key c).2",
"new": "    else (kvSet m key o).2",
"claim": "a value that the user changed stays"
},
{
"file": "IniMerge/Model",
"def": "single",
"old": "let o := direct orig key 0",
"new": "let o := direct new key 0",
"claim": "the original value is compared"
},
{
"file": "IniMerge/Model",
"def": "cached",
"old": "List.range (kvLen ini key)",
"new": "List.range (kvLen ini key - 1)",
"claim": "a value is found among all values"
},
{
"file": "IniMerge/Model",
"def": "found",
"old": "l.any (fun w => valEq w v)",
"new": "l.all (fun w => valEq w v)",
"claim": "a value is found among all values"
},
{
"file": "IniMerge/Model",
"def": "mergedVals",
"old": "inNew || (!inNew && !inOrig) ||",
"new": "(!inNew && !inOrig) ||",
"claim": "values of both stay"
},
{
"file": "IniMerge/Model",
"def": "mergedVals",
"old": "inNew || (!inNew && !inOrig) ||",
"new": "inNew ||",
"claim": "values of the user stay"
},
{
"file": "IniMerge/Model",
"def": "mergedVals",
"old": "(!inNew && inOrig && useCur r 8 (some key) v none)",
"new": "(!inNew && inOrig)",
"claim": "values that the new object does not have any more go"
},
{
"file": "IniMerge/Model",
"def": "mergedVals",
"old": "|| (!inNew && inOrig && useCur r 8 (some key) v none)",
"new": "",
"claim": "the flag keeps values that the new object does not have any more"
},
{
"file": "IniMerge/Model",
"def": "mergedVals",
"old": "useCur r 8 (some key)",
"new": "useCur r 4 (some key)",
"claim": "each flag is for its conflict"
},
{
"file": "IniMerge/Model",
"def": "mergedVals",
"old": "!found (cached cur key) v && !found (cached orig key) v",
"new": "!found (cached cur key) v",
"claim": "a value that the user removed stays away"
},
{
"file": "IniMerge/Model",
"def": "mergedVals",
"old": "!found (cached cur key) v && !found (cached orig key) v",
"new": "!found (cached orig key) v",
"claim": "a value of both comes once"
},
{
"file": "IniMerge/Model",
"def": "mergedVals",
"old": "let inOrig := found (cached orig key) v",
"new": "let inOrig := found (cached cur key) v",
"claim": "the values of the original object are compared"
},
{
"file": "IniMerge/Model",
"def": "multi",
"old": "kvLen cur key ≤ 1 ∧ kvLen new key ≤ 1",
"new": "kvLen cur key ≤ 1 ∨ kvLen new key ≤ 1",
"claim": "keys with several values are merged value by value"
},
{
"file": "IniMerge/Model",
"def": "multi",
"old": "(kvInsert m key v).2) m",
"new": "(kvSet m key v).2) m",
"claim": "all merged values come in"
},
{
"file": "IniMerge/Model",
"def": "merge",
"old": "(ks.foldl (single r cur new orig) (handleKeys r cur new orig (createMerged new)))",
"new": "(handleKeys r cur new orig (createMerged new))",
"claim": "keys with one value get it"
},
{
"file": "IniMerge/Model",
"def": "merge",
"old": "ks.foldl (multi r cur new orig) (ks",
"new": "id (ks",
"claim": "keys with several values get them"
},
{
"file": "IniMerge/Model",
"def": "merge",
"old": "ks.foldl (multi r cur new orig)",
"new": "ks.foldl (multi r new cur orig)",
"claim": "the user's values come first, those of the new object behind them"
},
{
"file": "IniMerge/Model",
"def": "merge",
"old": "(handleKeys r cur new orig (createMerged new))",
"new": "(handleKeys r new cur orig (createMerged new))",
"claim": "the current object is the one the user changed"
}
]