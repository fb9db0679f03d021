[
{
"file": "Http/WriterModel",
"def": "writeLength",
"old": "if data.isSome ∧ i.toNat ≠ len then some none else ",
"new": "",
"claim": "a wrong length is refused",
"tightened": [
"Verif.Http.Frame.response_refused"
]
},
{
"file": "Http/WriterModel",
"def": "writeInt",
"old": "(data.isSome ∧ len ≠ 0) ∧ (dictGet",
"new": "(data.isSome ∧ len > 1) ∧ (dictGet",
"claim": "data with a transfer encoding is refused",
"tightened": [
"Verif.Http.Frame.response_refused"
]
},
{
"file": "SkipList/Model",
"def": "create",
"old": "levels := 4",
"new": "levels := 0",
"claim": "there is a first level"
},
{
"file": "SkipList/Model",
"def": "calcLevel",
"old": "min (k + 1)",
"new": "min k",
"claim": "a node is in the first level"
},
{
"file": "SkipList/Model",
"def": "scan",
"old": "cmp v w > 0",
"new": "cmp w v > 0",
"claim": "the search goes over smaller values"
},
{
"file": "SkipList/Model",
"def": "scan",
"old": "scan cmp s v i fuel q else some n1",
"new": "scan cmp s v i fuel q else some q",
"claim": "the node before the first that is not smaller"
},
{
"file": "SkipList/Model",
"def": "begin",
"old": "if cmp w v > 0 then none else some x",
"new": "some x",
"claim": "a value before the head becomes the head"
},
{
"file": "SkipList/Model",
"def": "begin",
"old": "if cmp w v > 0",
"new": "if cmp v w > 0",
"claim": "a value before the head becomes the head"
},
{
"file": "SkipList/Model",
"def": "begin",
"old": "if cmp w v > 0",
"new": "if cmp w v > 1",
"claim": "a value before the head becomes the head"
},
{
"file": "SkipList/Model",
"def": "place",
"old": "scan cmp s v i (s.elements + 1) x",
"new": "scan cmp s v 0 (s.elements + 1) x",
"claim": "the search is in the level"
},
{
"file": "SkipList/Model",
"def": "link",
"old": "setHead s i (some node)",
"new": "setHead s 0 (some node)",
"claim": "the head of the level"
},
{
"file": "SkipList/Model",
"def": "link",
"old": "(getHead s i).bind fun h => (setNext s node i h)",
"new": "(getHead s i).bind fun h => (setNext s node i none)",
"claim": "the node goes before the old head"
},
{
"file": "SkipList/Model",
"def": "link",
"old": "(setNext s node i nx).bind fun s => (setPrev s node i (some x))",
"new": "(setNext s node i nx).bind fun s => (setPrev s node i none)",
"claim": "the node before"
},
{
"file": "SkipList/Model",
"def": "link",
"old": "setNext s x i (some node)",
"new": "some s",
"claim": "the node is reached from that before"
},
{
"file": "SkipList/Model",
"def": "link",
"old": "| some q => setPrev s q i (some node)",
"new": "| some q => some s",
"claim": "the node after points back"
},
{
"file": "SkipList/Model",
"def": "link",
"old": "if i = 0 then some { s with tail := some node } else some s",
"new": "some s",
"claim": "the last node is the tail"
},
{
"file": "SkipList/Model",
"def": "link",
"old": "if i = 0 then some { s with tail := some node } else some s",
"new": "some { s with tail := some node }",
"claim": "only the first level has the tail"
},
{
"file": "SkipList/Model",
"def": "insertLoop",
"old": "if i ≥ lv then",
"new": "if i > lv then",
"claim": "no link beyond the levels of the node"
},
{
"file": "SkipList/Model",
"def": "prepare",
"old": "levels := max s.levels lv",
"new": "levels := s.levels",
"claim": "the head has the levels of the node"
},
{
"file": "SkipList/Model",
"def": "prepare",
"old": "head := fun i => if i < s.levels then s.head i else none",
"new": "head := fun i => s.head i",
"claim": "new levels are empty"
},
{
"file": "SkipList/Model",
"def": "insert",
"old": "elements := s.elements + 1",
"new": "elements := s.elements",
"claim": "the number of elements"
},
{
"file": "SkipList/Model",
"def": "insert",
"old": "s.levels none s).map",
"new": "1 none s).map",
"claim": "all levels are linked"
},
{
"file": "SkipList/Model",
"def": "findScan",
"old": "if cmp w v = 0 then some (some node, true)",
"new": "if cmp w v = 0 then some (some node, false)",
"claim": "a match is found"
},
{
"file": "SkipList/Model",
"def": "findScan",
"old": "else if cmp w v > 0 then (getPrev s node i).map fun p => (p, false)",
"new": "else if cmp w v > 0 then some (some node, false)",
"claim": "go back before going down"
},
{
"file": "SkipList/Model",
"def": "findScan",
"old": "else if cmp w v > 0",
"new": "else if cmp w v < 0",
"claim": "go back when too far"
},
{
"file": "SkipList/Model",
"def": "findLoop",
"old": "(match node with\n      | some x => some (some x)\n      | none => getHead s i)",
"new": "(match node with\n      | some x => some (some x)\n      | none => some none)",
"claim": "the search begins at the head"
},
{
"file": "SkipList/Model",
"def": "findLoop",
"old": "| none => findLoop cmp s v i none",
"new": "| none => some none",
"claim": "an empty level is skipped"
},
{
"file": "SkipList/Model",
"def": "findBack",
"old": "if cmp w v = 0 then findBack cmp s v fuel p else some node",
"new": "some node",
"claim": "the first match"
},
{
"file": "SkipList/Model",
"def": "findBack",
"old": "if cmp w v = 0 then findBack cmp s v fuel p else some node",
"new": "if cmp w v = 0 then findBack cmp s v fuel p else some p",
"claim": "the first match"
},
{
"file": "SkipList/Model",
"def": "findBack",
"old": "(getPrev s node 0)",
"new": "(getPrev s node 1)",
"claim": "back in the first level"
},
{
"file": "SkipList/Model",
"def": "findPtr",
"old": "if cmp w v = 0 then findPtr cmp s v fuel q else some none",
"new": "some none",
"claim": "pointers among equal values"
},
{
"file": "SkipList/Model",
"def": "findPtr",
"old": "if v = w then some (some node)",
"new": "if cmp v w = 0 then some (some node)",
"claim": "a pointer is not a value"
},
{
"file": "SkipList/Model",
"def": "find",
"old": "if ptr then findPtr",
"new": "if !ptr then findPtr",
"claim": "the kind of matching"
},
{
"file": "SkipList/Model",
"def": "unlinkAt",
"old": "(getPrev s n i).map fun p => { s with tail := p }",
"new": "some s",
"claim": "the tail goes back"
},
{
"file": "SkipList/Model",
"def": "unlinkAt",
"old": "if i = 0 then (getPrev s n i).map fun p => { s with tail := p } else some s",
"new": "(getPrev s n i).map fun p => { s with tail := p }",
"claim": "only the first level has the tail"
},
{
"file": "SkipList/Model",
"def": "unlinkAt",
"old": "(getPrev s n i).bind fun p => setPrev s q i p",
"new": "some s",
"claim": "no link back to a freed node"
},
{
"file": "SkipList/Model",
"def": "unlinkAt",
"old": "| none => setHead s i nx",
"new": "| none => some s",
"claim": "the head moves on"
},
{
"file": "SkipList/Model",
"def": "unlinkAt",
"old": "| some q => setNext s q i nx",
"new": "| some q => setNext s q i none",
"claim": "the rest of the level is kept"
},
{
"file": "SkipList/Model",
"def": "unlinkLoop",
"old": "| i + 1, s => (unlinkAt s n i).bind (unlinkLoop n i)",
"new": "| i + 1, s => if i = 0 then (unlinkAt s n i) else unlinkLoop n i s",
"claim": "all levels are unlinked"
},
{
"file": "SkipList/Model",
"def": "trim",
"old": "| 1 => 1",
"new": "| 1 => if head 0 = none then 0 else 1",
"claim": "the first level stays"
},
{
"file": "SkipList/Model",
"def": "trim",
"old": "if head (i + 1) = none then",
"new": "if head i = none then",
"claim": "only empty levels go"
},
{
"file": "SkipList/Model",
"def": "takeNode",
"old": "cell := upd s.cell n none",
"new": "cell := s.cell",
"claim": "the node is freed"
},
{
"file": "SkipList/Model",
"def": "takeNode",
"old": "elements := s.elements - 1",
"new": "elements := s.elements",
"claim": "the number of elements"
},
{
"file": "SkipList/Model",
"def": "takeNode",
"old": "(unlinkLoop n c.2 s)",
"new": "(unlinkLoop n 1 s)",
"claim": "all levels are unlinked"
},
{
"file": "SkipList/Model",
"def": "matchLoop",
"old": "let isMatch : Bool := valMatch && (!ptr || decide (v = w))",
"new": "let isMatch : Bool := valMatch",
"claim": "pointers are compared"
},
{
"file": "SkipList/Model",
"def": "matchLoop",
"old": "if !valMatch then some r",
"new": "if !isMatch then some r",
"claim": "equal values may be between matches"
},
{
"file": "SkipList/Model",
"def": "matchLoop",
"old": "(takeNode s node).map fun r => (cnt + 1, r.2)",
"new": "(takeNode s node).map fun r => (cnt, r.2)",
"claim": "removals are counted"
},
{
"file": "SkipList/Model",
"def": "matchLoop",
"old": "r.1 = 1 ∧ !all ∧ remove",
"new": "r.1 = 1 ∧ !all",
"claim": "a count counts all"
},
{
"file": "SkipList/Model",
"def": "matchLoop",
"old": "r.1 = 1 ∧ !all ∧ remove",
"new": "r.1 = 1 ∧ remove",
"claim": "all are removed"
},
{
"file": "SkipList/Model",
"def": "matchLoop",
"old": "r.1 = 1 ∧ !all ∧ remove",
"new": "r.1 = 2 ∧ !all ∧ remove",
"claim": "only one is removed"
},
{
"file": "SkipList/Model",
"def": "matchLoop",
"old": "matchLoop cmp v ptr all remove fuel r.2 next r.1",
"new": "matchLoop cmp v ptr all remove fuel r.2 (some node) r.1",
"claim": "on to the next node, not the freed one"
},
{
"file": "SkipList/Model",
"def": "dupInner",
"old": "let rm : Bool := if ptr then decide (v = w) else decide (cmp v w = 0)",
"new": "let rm : Bool := decide (cmp v w = 0)",
"claim": "pointers are compared"
},
{
"file": "SkipList/Model",
"def": "dupInner",
"old": "if cmp v w ≠ 0 then some s else dupInner",
"new": "if rm then some s else dupInner",
"claim": "all duplicates go"
},
{
"file": "SkipList/Model",
"def": "dupInner",
"old": "(takeNode s n2).map (·.2)",
"new": "(takeNode s n1).map (·.2)",
"claim": "the first one stays"
},
{
"file": "SkipList/Model",
"def": "dupOuter",
"old": "(getNext s n1 0).bind fun next => dupOuter",
"new": "(some n2).bind fun next => dupOuter",
"claim": "on to a node that is still there"
},
{
"file": "SkipList/Model",
"def": "insertVals",
"old": "if r.isSome then insertVals",
"new": "if r.isNone then insertVals",
"claim": "values that are there are skipped"
},
{
"file": "SkipList/Model",
"def": "insertVals",
"old": "if skip then find cmp s v ptr",
"new": "if skip then find cmp s v false",
"claim": "the kind of matching"
},
{
"file": "SkipList/Model",
"def": "merge",
"old": "insertVals cmp (!dups) ptr",
"new": "insertVals cmp dups ptr",
"claim": "duplicates are included on demand"
}
]