[
{
"file": "Ini/Model",
"def": "deleteWs",
"old": "if isWs c then d :: deleteWs t else",
"new": "if isWs c then deleteWs t else",
"claim": "the character behind a blank is lost with it"
},
{
"file": "Ini/Model",
"def": "isWs",
"old": "c = 32 ∨ c = 95 ∨ c = 45 ∨ c = 9",
"new": "c = 32 ∨ c = 95 ∨ c = 45",
"claim": "tabs are not ignored"
},
{
"file": "Ini/Model",
"def": "intKey",
"old": "if ign then deleteWs k else k",
"new": "if ign then k else deleteWs k",
"claim": "blanks are ignored exactly when they should not be"
},
{
"file": "Ini/Model",
"def": "upd",
"old": "if fold p.1 = fold k then (p.1, v) else p",
"new": "if p.1 = k then (p.1, v) else p",
"claim": "a value set under another spelling is not changed"
},
{
"file": "Ini/Model",
"def": "Kvs.ensure",
"old": "⟨ins d.dict k [], d.keys ++ [k]⟩",
"new": "⟨ins d.dict k [], d.keys⟩",
"claim": "new keys are not listed"
},
{
"file": "Ini/Model",
"def": "Kvs.insert",
"old": "upd d.dict k (vs ++ [v])",
"new": "upd d.dict k (v :: vs)",
"claim": "values come out in reverse order"
},
{
"file": "Ini/Model",
"def": "Kvs.set",
"old": "(d.removeAll k).insert k v",
"new": "d.insert k v",
"claim": "set keeps the earlier values"
},
{
"file": "Ini/Model",
"def": "Kvs.removeAt",
"old": "if i < vs.length then",
"new": "if i ≤ vs.length then",
"claim": "removing a value behind the end is reported as done"
},
{
"file": "Ini/Model",
"def": "Kvs.removeAt",
"old": "vs.eraseIdx i",
"new": "vs.eraseIdx 0",
"claim": "the wrong value is removed"
},
{
"file": "Ini/Model",
"def": "Kvs.removeAll",
"old": "upd d.dict k []",
"new": "del d.dict k",
"claim": "removing all values removes the key"
},
{
"file": "Ini/Model",
"def": "dropKey",
"old": "if fold x = fold k then xs",
"new": "if x = k then xs",
"claim": "a key removed under another spelling stays in the list of keys"
},
{
"file": "Ini/Model",
"def": "Kvs.remove",
"old": "⟨del d.dict k, dropKey k d.keys⟩",
"new": "⟨del d.dict k, d.keys⟩",
"claim": "a removed key stays in the list of keys"
},
{
"file": "Ini/Model",
"def": "Kvs.enum",
"old": "(v :: vs).map (fun v => (k, v))",
"new": "[(k, v)]",
"claim": "only the first value of a key is enumerated"
},
{
"file": "Ini/Model",
"def": "badKey",
"old": "k = [] ∨ k.getLast? = some 47",
"new": "k = []",
"claim": "the name of a section is accepted as a key"
},
{
"file": "Ini/Model",
"def": "kvPut",
"old": "(true, { ini' with lookup := addNames ini' key })",
"new": "(true, ini')",
"claim": "the names of new keys are not kept"
},
{
"file": "Ini/Model",
"def": "addNames",
"old": "ins l (intKey ini.ign (fullKey (some s) [])) s else l",
"new": "l else l",
"claim": "the name of a new section is not kept"
},
{
"file": "Ini/Model",
"def": "addNames",
"old": "ins ini.lookup (intKey ini.ign key) k",
"new": "ins ini.lookup (intKey ini.ign k) k",
"claim": "the name of a key in a section is kept without the section"
},
{
"file": "Ini/Model",
"def": "kvRemove",
"old": "lookup := del ini.lookup (intKey ini.ign key) }",
"new": "lookup := ini.lookup }",
"claim": "a removed key is still listed"
},
{
"file": "Ini/Model",
"def": "kvRemove",
"old": "if r.1 then (true,",
"new": "if r.1 then (false,",
"claim": "removing a key that is there is reported as failed"
},
{
"file": "Ini/Model",
"def": "kvRemoveVals",
"old": "if badKey key then (false, ini) else (true, { ini with kvs := ini.kvs.removeAll (intKey ini.ign key) })",
"new": "if badKey key then (false, ini) else (true, ini)",
"claim": "removing values does nothing"
},
{
"file": "Ini/Model",
"def": "kvGet",
"old": "ini.kvs.get (intKey ini.ign k) i",
"new": "ini.kvs.get k i",
"claim": "blanks in the key of a question are not ignored"
},
{
"file": "Ini/Model",
"def": "kvHas",
"old": "(kvGet ini (intKey ini.ign k) 0).isSome",
"new": "ini.kvs.has (intKey ini.ign k)",
"claim": "a key without values is said to have one"
},
{
"file": "Ini/Model",
"def": "kvLen",
"old": "ini.kvs.len (intKey ini.ign k)",
"new": "ini.kvs.len k",
"claim": "blanks in the key of a question are not ignored"
},
{
"file": "Ini/Model",
"def": "kvKeys",
"old": "p.1.getLast? ≠ some 47",
"new": "p.2.getLast? ≠ some 47",
"claim": "sections are listed as keys"
},
{
"file": "Ini/Model",
"def": "kvKeys",
"old": "look ini.lookup (fullKey (some s) [])) p.2",
"new": "look ini.lookup (fullKey (some s) [])) p.1",
"claim": "keys of sections are listed with the section twice"
},
{
"file": "Ini/Model",
"def": "Kvs.duplicate",
"old": "(o.insert p.1 p.2).2) Kvs.create",
"new": "(o.set p.1 p.2).2) Kvs.create",
"claim": "a copy has only the last value of each key"
}
]