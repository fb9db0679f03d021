[
{
"file": "HashMulti/Model",
"def": "tyOf",
"old": "| some o => o.ty",
"new": "| some o => if o.ty = .vp then .unknown else o.ty",
"claim": "pointers have no type"
},
{
"file": "HashMulti/Model",
"def": "create",
"old": "allocs := h.allocs + 1",
"new": "allocs := h.allocs",
"claim": "allocation not counted"
},
{
"file": "HashMulti/Model",
"def": "objBool",
"old": "if o.ty ≠ .bool then .no",
"new": "if o.ty ≠ .bool ∧ o.ty ≠ .int then .no",
"claim": "integers read as booleans"
},
{
"file": "HashMulti/Model",
"def": "objInt",
"old": "if o.ty ≠ .int then .no",
"new": "if o.ty ≠ .int ∧ o.ty ≠ .vp then .no",
"claim": "pointers read as integers"
},
{
"file": "HashMulti/Model",
"def": "objStr",
"old": "if o.ty ≠ .str then .no",
"new": "if o.ty ≠ .str ∧ o.ty ≠ .bin then .no",
"claim": "binary data read as strings"
},
{
"file": "HashMulti/Model",
"def": "objBin",
"old": "if o.ty ≠ .bin then .no",
"new": "if o.ty ≠ .bin ∧ o.ty ≠ .str then .no",
"claim": "strings read as binary data"
},
{
"file": "HashMulti/Model",
"def": "objBin",
"old": "l.take o.len",
"new": "l.take (o.len - 1)",
"claim": "last byte missing"
},
{
"file": "HashMulti/Model",
"def": "objVp",
"old": "if o.ty ≠ .vp then .no",
"new": "if o.ty ≠ .vp ∧ o.ty ≠ .int then .no",
"claim": "integers read as pointers"
},
{
"file": "HashMulti/Model",
"def": "destroyObj",
"old": "calls := h.calls ++ [(f, p)]",
"new": "calls := h.calls",
"claim": "free function never called"
},
{
"file": "HashMulti/Model",
"def": "destroyObj",
"old": "calls := h.calls ++ [(f, p)]",
"new": "calls := h.calls ++ [(f, p), (f, p)]",
"claim": "released twice"
},
{
"file": "HashMulti/Model",
"def": "destroyObj",
"old": "{ h with frees := h.frees + 1 }",
"new": "h",
"claim": "block of an object never released"
},
{
"file": "HashMulti/Model",
"def": "remove",
"old": "if destroy then get h.d k else none",
"new": "get h.d k",
"claim": "removal without destruction still releases"
},
{
"file": "HashMulti/Model",
"def": "remove",
"old": "if destroy then get h.d k else none",
"new": "if destroy then none else get h.d k",
"claim": "destroy_vp inverted"
},
{
"file": "HashMulti/Model",
"def": "remove",
"old": "d := del h.d k, t := del h.t k",
"new": "t := del h.t k",
"claim": "free function stays registered: the next pointer is released with it"
},
{
"file": "HashMulti/Model",
"def": "remove",
"old": "d := del h.d k, t := del h.t k",
"new": "d := del h.d k",
"claim": "value stays after removal"
},
{
"file": "HashMulti/Model",
"def": "remove",
"old": "| none => (false, h)",
"new": "| none => (true, h)",
"claim": "removing an absent key succeeds"
},
{
"file": "HashMulti/Model",
"def": "store",
"old": "if k.valid then",
"new": "if true then",
"claim": "empty keys accepted"
},
{
"file": "HashMulti/Model",
"def": "insBool",
"old": "let h := (remove h k true).2\n    let c",
"new": "let c",
"claim": "old value not released on replacement by a boolean"
},
{
"file": "HashMulti/Model",
"def": "insInt",
"old": "let h := (remove h k true).2\n    let c",
"new": "let h := (remove h k false).2\n    let c",
"claim": "replaced by an integer: pointer lost"
},
{
"file": "HashMulti/Model",
"def": "insInt",
"old": "if !k.valid then (false, h)",
"new": "if !k.valid then (true, h)",
"claim": "storing under an empty key reported as success"
},
{
"file": "HashMulti/Model",
"def": "insStr",
"old": "s ++ [0]",
"new": "s",
"claim": "terminator not copied"
},
{
"file": "HashMulti/Model",
"def": "insStr",
"old": "(s.length + 1)",
"new": "s.length",
"claim": "recorded length lacks the terminator"
},
{
"file": "HashMulti/Model",
"def": "insBin",
"old": "(v.getD []).length",
"new": "(v.getD []).length + 1",
"claim": "recorded length one too many"
},
{
"file": "HashMulti/Model",
"def": "insBin",
"old": "let h := (remove h k true).2",
"new": "let h := (remove h k false).2",
"claim": "replaced by binary data: pointer lost"
},
{
"file": "HashMulti/Model",
"def": "insBin",
"old": "create h .bin",
"new": "create h .str",
"claim": "binary data stored as string"
},
{
"file": "HashMulti/Model",
"def": "insVp",
"old": "if p = 0 then (false, h)",
"new": "if p = 1 then (false, h)",
"claim": "NULL pointers accepted"
},
{
"file": "HashMulti/Model",
"def": "insVp",
"old": "let h := (remove h k true).2",
"new": "let h := (remove h k false).2",
"claim": "replaced pointer not released"
},
{
"file": "HashMulti/Model",
"def": "insVp",
"old": "| some f => { s.2 with d := put s.2.d k f }",
"new": "| some _ => s.2",
"claim": "free function not registered"
},
{
"file": "HashMulti/Model",
"def": "insVp",
"old": "if s.1 then (true, match",
"new": "if true then (true, match",
"claim": "refused insertion registers the free function and succeeds"
},
{
"file": "HashMulti/Model",
"def": "typeOf",
"old": "| some o => tyOf o",
"new": "| some _ => .str",
"claim": "every value is a string"
},
{
"file": "HashMulti/Model",
"def": "destroy",
"old": "get h.d e.1",
"new": "none",
"claim": "destroying the table releases no pointers"
},
{
"file": "HashMulti/Model",
"def": "destroy",
"old": "h.t.foldl",
"new": "(h.t.drop 1).foldl",
"claim": "first entry not destroyed"
},
{
"file": "HashMulti/Model",
"def": "insAlias",
"old": "if (get (remove h dst true).2.t src).isNone then none\n    else some",
"new": "if false then none\n    else some",
"claim": "copy before release"
},
{
"file": "HashMulti/Model",
"def": "step",
"old": "| .vp k p f => insVp h (k.fold fold) p f",
"new": "| .vp k p f => insVp h k p f",
"claim": "case folding forgotten for pointers"
},
{
"file": "HashMulti/Model",
"def": "step",
"old": "| .remove k d => remove h (k.fold fold) d",
"new": "| .remove k d => remove h k d",
"claim": "case folding forgotten for removal"
}
]