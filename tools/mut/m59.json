[
{
"file": "ThreadLocal/Model",
"def": "sdel",
"old": "decide (p.1 ≠ k)",
"new": "decide (p.1 = k)",
"claim": "removing a key removes that key only"
},
{
"file": "ThreadLocal/Model",
"def": "sins",
"old": "(k, v) :: sdel st k",
"new": "sdel st k",
"claim": "a value that was set is got back"
},
{
"file": "ThreadLocal/Model",
"def": "slook",
"old": "decide (p.1 = k)",
"new": "decide (p.1 ≤ k)",
"claim": "a thread gets the value of that key"
},
{
"file": "ThreadLocal/Model",
"def": "klook",
"old": "decide (p.1 = k)",
"new": "decide (p.1 ≥ k)",
"claim": "a value is taken only for keys that were handed out"
},
{
"file": "ThreadLocal/Model",
"def": "step",
"old": "(s.keyId + 1) % W } t (.create2 d ((s.keyId + 1) % W))",
"new": "(s.keyId + 1) % W } t (.create2 d s.keyId)",
"claim": "keys are not zero"
},
{
"file": "ThreadLocal/Model",
"def": "step",
"old": "goto { s with keyId := (s.keyId + 1) % W } t",
"new": "goto s t",
"claim": "keys are handed out once"
},
{
"file": "ThreadLocal/Model",
"def": "step",
"old": "{ s with keyId := (s.keyId + 1) % W } t (.create2 d ((s.keyId + 1) % W))",
"new": "s t (.create2 d 0)",
"claim": "the number is drawn atomically"
},
{
"file": "ThreadLocal/Model",
"def": "step",
"old": "say (goto { s with keys := (id, d) :: s.keys } t .idle) [.created t id d]",
"new": "say (goto s t .idle) [.created t id d]",
"claim": "a key that was handed out can be used"
},
{
"file": "ThreadLocal/Model",
"def": "step",
"old": "keys := (id, d) :: s.keys",
"new": "keys := (id, none) :: s.keys",
"claim": "values go to the destructor of the key"
},
{
"file": "ThreadLocal/Model",
"def": "step",
"old": "keys := (id, d) :: s.keys",
"new": "keys := [(id, d)]",
"claim": "a key that was handed out can be used"
},
{
"file": "ThreadLocal/Model",
"def": "step",
"old": "{ s with keys := (id, d) :: s.keys } t .idle) [.created t id d]",
"new": "{ s with keys := (id, d) :: s.keys } t .idle) [.created t s.keyId d]",
"claim": "keys are handed out once (number read again under the lock)"
},
{
"file": "ThreadLocal/Model",
"def": "step",
"old": "| none => say s [.wasSet t key val false]",
"new": "| none => say s [.wasSet t key val true]",
"claim": "a value is taken only for keys that were handed out"
},
{
"file": "ThreadLocal/Model",
"def": "step",
"old": "| none => say s [.wasSet t key val false]",
"new": "| none => goto (setPool s t (some [])) t (.set2 key val none)",
"claim": "a value is taken only for keys that were handed out"
},
{
"file": "ThreadLocal/Model",
"def": "step",
"old": "| some d =>\n        match s.pool t with\n        | none => goto (setPool s t (some [])) t (.set2 key val d)\n        | some _ => goto s t (.set2 key val d)",
"new": "| some d => goto (setPool s t (some [])) t (.set2 key val d)",
"claim": "setting a value keeps the other values"
},
{
"file": "ThreadLocal/Model",
"def": "step",
"old": "| some _ => goto s t (.set2 key val d)",
"new": "| some _ => goto s t (.set2 key val none)",
"claim": "values go to the destructor of the key"
},
{
"file": "ThreadLocal/Model",
"def": "step",
"old": "| some _ => goto s t (.set2 key val d)",
"new": "| some _ => goto s 0 (.set2 key val d)",
"claim": "a thread sets its own values"
},
{
"file": "ThreadLocal/Model",
"def": "step",
"old": "| none => say s [.got t key 0]",
"new": "| none => say s [.got t key key]",
"claim": "a thread without values gets NULL"
},
{
"file": "ThreadLocal/Model",
"def": "step",
"old": "(slook ((s.pool t).getD []) key)",
"new": "(slook ((s.pool 0).getD []) key)",
"claim": "a thread gets its own value"
},
{
"file": "ThreadLocal/Model",
"def": "step",
"old": "(slook ((s.pool t).getD []) key)",
"new": "(slook ((s.pool t).getD []) 1)",
"claim": "a thread gets the value of that key"
},
{
"file": "ThreadLocal/Model",
"def": "step",
"old": ".getD 0)]",
"new": ".getD 1)]",
"claim": "NULL if there is no value"
},
{
"file": "ThreadLocal/Model",
"def": "step",
"old": "| none => say s [.purged t]\n      | some _ => goto s t .purge2",
"new": "| _ => say s [.purged t]",
"claim": "all values are destroyed when a thread ends"
},
{
"file": "ThreadLocal/Model",
"def": "step",
"old": "say (goto (setPool s t (some (sdel st key))) t (.set3 key val d)) (destroyAt t key st)",
"new": "say (goto s t (.set3 key val d)) (destroyAt t key st)",
"claim": "a value is destroyed once"
},
{
"file": "ThreadLocal/Model",
"def": "step",
"old": "say (goto (setPool s t (some (sdel st key))) t (.set3 key val d)) (destroyAt t key st)",
"new": "goto (setPool s t (some (sdel st key))) t (.set3 key val d)",
"claim": "a cleared value is destroyed"
},
{
"file": "ThreadLocal/Model",
"def": "step",
"old": "(some (sdel st key))",
"new": "(some [])",
"claim": "clearing a value keeps the others"
},
{
"file": "ThreadLocal/Model",
"def": "step",
"old": "(sdel st key))) t (.set3 key val d)) (destroyAt t key st)",
"new": "(sdel st key))) t .idle) (destroyAt t key st ++ [.wasSet t key val false])",
"claim": "setting succeeds for keys that were handed out"
},
{
"file": "ThreadLocal/Model",
"def": "step",
"old": "(destroyAt t key st ++ [.wasSet t key val true])",
"new": "[.wasSet t key val true]",
"claim": "a replaced value is destroyed"
},
{
"file": "ThreadLocal/Model",
"def": "step",
"old": "(destroyAt t key st ++ [.wasSet t key val true])",
"new": "(destroyAt t key st ++ destroyAt t key st ++ [.wasSet t key val true])",
"claim": "a replaced value is destroyed once"
},
{
"file": "ThreadLocal/Model",
"def": "step",
"old": "sins st key ⟨d, val⟩",
"new": "sins st key ⟨none, val⟩",
"claim": "values go to the destructor of the key"
},
{
"file": "ThreadLocal/Model",
"def": "step",
"old": "sins st key ⟨d, val⟩",
"new": "sins st (key + 1) ⟨d, val⟩",
"claim": "a value is set under that key"
},
{
"file": "ThreadLocal/Model",
"def": "step",
"old": "say (goto (setPool s t (some (sins st key ⟨d, val⟩))) t .idle)",
"new": "say (goto s t .idle)",
"claim": "a value that was set is got back"
},
{
"file": "ThreadLocal/Model",
"def": "step",
"old": "say (goto (setPool s t (some (sins",
"new": "say (goto (setPool s 0 (some (sins",
"claim": "a thread sets its own values"
},
{
"file": "ThreadLocal/Model",
"def": "step",
"old": "[.wasSet t key val true])",
"new": "[.wasSet t key val false])",
"claim": "setting succeeds for keys that were handed out"
},
{
"file": "ThreadLocal/Model",
"def": "step",
"old": "sins st key ⟨d, val⟩",
"new": "if (slook st key).isSome then st else sins st key ⟨d, val⟩",
"claim": "a thread gets what it set last"
},
{
"file": "ThreadLocal/Model",
"def": "step",
"old": "((s.pool t).getD []).map (·.1)",
"new": "[]",
"claim": "no destructor under the lock"
},
{
"file": "ThreadLocal/Model",
"def": "step",
"old": "(((s.pool t).getD []).map (·.1))",
"new": "((((s.pool t).getD []).map (·.1)).drop 1)",
"claim": "no destructor under the lock"
},
{
"file": "ThreadLocal/Model",
"def": "step",
"old": "say (goto (setPool s t (some (sdel st k))) t (.purge3 ks)) (destroyAt t k st)",
"new": "say (goto s t (.purge3 ks)) (destroyAt t k st)",
"claim": "each value is destroyed once at the end"
},
{
"file": "ThreadLocal/Model",
"def": "step",
"old": "say (goto (setPool s t (some (sdel st k))) t (.purge3 ks)) (destroyAt t k st)",
"new": "goto (setPool s t (some (sdel st k))) t (.purge3 ks)",
"claim": "each value is destroyed at the end"
},
{
"file": "ThreadLocal/Model",
"def": "step",
"old": "say (goto (setPool s t (some (sdel st k))) t (.purge3 ks)) (destroyAt t k st)",
"new": "say (goto (setPool s t (some (sdel st k))) t (.purge3 [])) (destroyAt t k st)",
"claim": "no destructor under the lock"
},
{
"file": "ThreadLocal/Model",
"def": "step",
"old": "say (goto (setPool s t none) t .idle) (st.flatMap",
"new": "say (goto (setPool s 0 none) t .idle) (st.flatMap",
"claim": "a thread ends itself only"
},
{
"file": "ThreadLocal/Model",
"def": "destroyVal",
"old": "| some d => [.destroyed t key d v.val locked]",
"new": "| some d => [.destroyed t key v.val d locked]",
"claim": "the destructor gets the value"
},
{
"file": "ThreadLocal/Model",
"def": "destroyVal",
"old": "| some d => [.destroyed t key d v.val locked]",
"new": "| some d => if v.val = 0 then [] else [.destroyed t key d v.val locked]",
"claim": "what is destroyed is exactly what was set (the null pointer, too)"
},
{
"file": "ThreadLocal/Model",
"def": "destroyVal",
"old": "| some d => [.destroyed t key d v.val locked]",
"new": "| some _ => []",
"claim": "values go to the destructor"
},
{
"file": "ThreadLocal/Model",
"def": "destroyVal",
"old": "| none => []",
"new": "| none => [.destroyed t key 0 v.val locked]",
"claim": "no destructor for keys without one"
},
{
"file": "ThreadLocal/Model",
"def": "destroyAt",
"old": "| some v => destroyVal t key false v",
"new": "| some v => destroyVal t key true v",
"claim": "no destructor under the lock"
},
{
"file": "ThreadLocal/Model",
"def": "setPool",
"old": "if u = t then st else s.pool u",
"new": "st",
"claim": "threads do not touch each other's tables"
},
{
"file": "ThreadLocal/Model",
"def": "goto",
"old": "if u = t then p else s.pc u",
"new": "p",
"claim": "threads do not touch each other's places"
}
]