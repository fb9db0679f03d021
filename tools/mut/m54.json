[
{
"file": "FsPerms/Model",
"def": "mRead",
"old": "twoPow 32 0",
"new": "twoPow 32 2",
"claim": "read and execute flags confused"
},
{
"file": "FsPerms/Model",
"def": "sIWUSR",
"old": "twoPow 32 7",
"new": "twoPow 32 6",
"claim": "write bit of the user wrong"
},
{
"file": "FsPerms/Model",
"def": "sIXGRP",
"old": "twoPow 32 3",
"new": "twoPow 32 0",
"claim": "execute for the group goes to others"
},
{
"file": "FsPerms/Model",
"def": "sIROTH",
"old": "twoPow 32 2",
"new": "twoPow 32 5",
"claim": "read for others goes to the group"
},
{
"file": "FsPerms/Model",
"def": "dup",
"old": "user := p.user, group := p.group",
"new": "user := p.user",
"claim": "group name not duplicated"
},
{
"file": "FsPerms/Model",
"def": "dup",
"old": "uid := p.uid, gid := p.gid",
"new": "uid := p.uid, gid := p.uid",
"claim": "group id from user id"
},
{
"file": "FsPerms/Model",
"def": "dup",
"old": "set := p.u.set, mode := p.u.mode, type := p.u.type",
"new": "set := p.u.set, mode := p.u.mode",
"claim": "type of user not duplicated"
},
{
"file": "FsPerms/Model",
"def": "dup",
"old": "{ d.dg with set := p.dg.set, mode := p.dg.mode, type := p.dg.type }",
"new": "{ d.dg with set := p.dg.set, mode := p.g.mode, type := p.dg.type }",
"claim": "override of group taken from the ordinary mode"
},
{
"file": "FsPerms/Model",
"def": "dup",
"old": "{ d.o with set := p.o.set,",
"new": "{ d.o with",
"claim": "set flag of others not duplicated"
},
{
"file": "FsPerms/Model",
"def": "mergePart",
"old": "if !s.set then d",
"new": "if false then d",
"claim": "unset source overwrites"
},
{
"file": "FsPerms/Model",
"def": "mergePart",
"old": "d.set && d.type == .exact",
"new": "d.type == .exact",
"claim": "unset destination counts as exact"
},
{
"file": "FsPerms/Model",
"def": "mergePart",
"old": "d.set && d.type == .exact && s.type != .exact",
"new": "d.set && s.type != .exact",
"claim": "modifier merged into modifier"
},
{
"file": "FsPerms/Model",
"def": "mergePart",
"old": "if s.type == .add then",
"new": "if s.type == .remove then",
"claim": "add and remove swapped in merge"
},
{
"file": "FsPerms/Model",
"def": "mergePart",
"old": "d.mode &&& ~~~ s.mode",
"new": "d.mode &&& s.mode",
"claim": "removing keeps the intersection"
},
{
"file": "FsPerms/Model",
"def": "mergePart",
"old": "mode := s.mode, type := s.type, set := true",
"new": "mode := s.mode, set := true",
"claim": "type of source not taken"
},
{
"file": "FsPerms/Model",
"def": "mergePart",
"old": "mode := s.mode, type := s.type, set := true",
"new": "mode := s.mode, type := s.type",
"claim": "set flag not set"
},
{
"file": "FsPerms/Model",
"def": "merge",
"old": "if src.user.isSome then { d with uid",
"new": "if src.group.isSome then { d with uid",
"claim": "user id taken when only the group is set"
},
{
"file": "FsPerms/Model",
"def": "merge",
"old": "if src.group.isSome then { d with gid",
"new": "if true then { d with gid",
"claim": "group id always taken"
},
{
"file": "FsPerms/Model",
"def": "merge",
"old": "g := mergePart d.g src.g",
"new": "g := mergePart d.g src.u",
"claim": "group merged with the user of the source"
},
{
"file": "FsPerms/Model",
"def": "merge",
"old": "du := mergePart d.du src.du",
"new": "du := d.du",
"claim": "overrides of user not merged"
},
{
"file": "FsPerms/Model",
"def": "merge",
"old": "⟨d, true⟩",
"new": "⟨d, false⟩",
"claim": "source destroyed: the leak claim no longer holds"
},
{
"file": "FsPerms/Model",
"def": "merge",
"old": "| none => ⟨src, false⟩",
"new": "| none => ⟨create, true⟩",
"claim": "merging into nothing loses the source"
},
{
"file": "FsPerms/Model",
"def": "getMode",
"old": "| .other => p.o.mode",
"new": "| .other => p.g.mode",
"claim": "mode of others read from group"
},
{
"file": "FsPerms/Model",
"def": "getDirType",
"old": "| .user => p.du.type",
"new": "| .user => p.u.type",
"claim": "override type read from the ordinary type"
},
{
"file": "FsPerms/Model",
"def": "getDirIsset",
"old": "| .group => p.dg.set",
"new": "| .group => p.g.set",
"claim": "override flag read from ordinary flag"
},
{
"file": "FsPerms/Model",
"def": "setMode",
"old": "| .group => { p with g := ⟨true, mode, type⟩ }",
"new": "| .group => { p with g := ⟨p.g.set, mode, type⟩ }",
"claim": "setting does not set the flag"
},
{
"file": "FsPerms/Model",
"def": "setMode",
"old": "| .other => { p with o := ⟨true, mode, type⟩ }",
"new": "| .other => { p with g := ⟨true, mode, type⟩ }",
"claim": "setting others sets the group"
},
{
"file": "FsPerms/Model",
"def": "setDirMode",
"old": "| .user => { p with du := ⟨true, mode, type⟩ }",
"new": "| .user => { p with du := ⟨true, p.du.mode ||| mode, type⟩ }",
"claim": "setting accumulates"
},
{
"file": "FsPerms/Model",
"def": "unsetDirMode",
"old": "| .other => { p with dO := ⟨false, 0#32, .exact⟩ }",
"new": "| .other => { p with dO := ⟨false, p.dO.mode, .exact⟩ }",
"claim": "mode stays after clearing"
},
{
"file": "FsPerms/Model",
"def": "unsetMode",
"old": "unsetDirMode p who",
"new": "p",
"claim": "clearing leaves the override"
},
{
"file": "FsPerms/Model",
"def": "unsetMode",
"old": "| .group => { p with g := ⟨false, 0#32, .exact⟩ }",
"new": "| .group => { p with g := ⟨false, 0#32, p.g.type⟩ }",
"claim": "type stays after clearing"
},
{
"file": "FsPerms/Model",
"def": "setUser",
"old": "| none => (p, false)",
"new": "| none => ({ p with user := some n }, false)",
"claim": "name of an unknown user recorded"
},
{
"file": "FsPerms/Model",
"def": "setUser",
"old": "user := some n, uid := id",
"new": "user := some n",
"claim": "number of the user not recorded"
},
{
"file": "FsPerms/Model",
"def": "setUser",
"old": "| none => ({ p with user := none }, true)",
"new": "| none => (p, true)",
"claim": "clearing does nothing, stays correct for a new object only"
},
{
"file": "FsPerms/Model",
"def": "setGroup",
"old": "({ p with group := some n, gid := id }, true)",
"new": "({ p with group := some n, uid := id }, true)",
"claim": "group number recorded as user"
},
{
"file": "FsPerms/Model",
"def": "setGroup",
"old": "| none => (p, false)",
"new": "| none => (p, true)",
"claim": "unknown group accepted"
},
{
"file": "FsPerms/Model",
"def": "pick",
"old": "if isdir && dp.set",
"new": "if dp.set",
"claim": "override used for files"
},
{
"file": "FsPerms/Model",
"def": "pick",
"old": "if isdir && dp.set then some (dp.mode, dp.type)",
"new": "if isdir && dp.set then some (dp.mode, p.type)",
"claim": "type of the ordinary part with the flags of the override"
},
{
"file": "FsPerms/Model",
"def": "pick",
"old": "else if p.set then",
"new": "else if p.set && !isdir then",
"claim": "directories without override ignored"
},
{
"file": "FsPerms/Model",
"def": "addBits",
"old": "if mymode &&& mWrite ≠ 0#32 then mode ||| sw",
"new": "if mymode &&& mWrite ≠ 0#32 then mode ||| sr",
"claim": "write adds read"
},
{
"file": "FsPerms/Model",
"def": "addBits",
"old": "if mymode &&& mExec ≠ 0#32 then mode ||| sx",
"new": "if mymode &&& mExec ≠ 0#32 then sx",
"claim": "execute drops the rest"
},
{
"file": "FsPerms/Model",
"def": "updatePart",
"old": "| some (mymode, .remove) => delBits mode",
"new": "| some (mymode, .remove) => addBits mode",
"claim": "removing adds"
},
{
"file": "FsPerms/Model",
"def": "update",
"old": "updatePart mode isdir p.g p.dg",
"new": "updatePart mode isdir p.g p.du",
"claim": "group uses override of the user"
},
{
"file": "FsPerms/Model",
"def": "update",
"old": "updatePart mode isdir p.o p.dO sIROTH",
"new": "updatePart mode true p.o p.dO sIROTH",
"claim": "override for others used on files"
},
{
"file": "FsPerms/Model",
"def": "toModePart",
"old": "type = .exact ∨ type = .add",
"new": "type = .exact",
"claim": "added permissions missing on new files"
},
{
"file": "FsPerms/Model",
"def": "toModePart",
"old": "if type = .exact ∨ type = .add then",
"new": "if true then",
"claim": "removed permissions given to new files"
},
{
"file": "FsPerms/Model",
"def": "toMode",
"old": "toModePart isdir p.u p.du",
"new": "toModePart isdir p.u p.u",
"claim": "override of the user ignored"
},
{
"file": "FsPerms/Model",
"def": "readBits",
"old": "if mode &&& sw ≠ 0#32 then m ||| mWrite",
"new": "if mode &&& sw ≠ 0#32 then m ||| mRead",
"claim": "write read as read"
},
{
"file": "FsPerms/Model",
"def": "readBits",
"old": "if mode &&& sx ≠ 0#32",
"new": "if mode &&& sx = 0#32",
"claim": "execute inverted"
},
{
"file": "FsPerms/Model",
"def": "infoPerms",
"old": ".group .exact",
"new": ".group .add",
"claim": "group permissions reported as added"
},
{
"file": "FsPerms/Model",
"def": "infoPerms",
"old": "(readBits mode sIROTH sIWOTH sIXOTH) .other",
"new": "(readBits mode sIRGRP sIWGRP sIXGRP) .other",
"claim": "others get the group's"
},
{
"file": "FsPerms/Model",
"def": "setPerms",
"old": "let mode := toMode (infoPerms f.mode) false",
"new": "let mode := f.mode",
"claim": "special bits kept: the claim that they are lost fails"
},
{
"file": "FsPerms/Model",
"def": "setPerms",
"old": "update mode p f.isdir",
"new": "update mode p false",
"claim": "override never used"
},
{
"file": "FsPerms/Model",
"def": "setPerms",
"old": "if p.user.isSome || p.group.isSome then",
"new": "if p.user.isSome && p.group.isSome then",
"claim": "owner changed only when both are set"
},
{
"file": "FsPerms/Model",
"def": "setPerms",
"old": "gid := if p.group.isSome then p.gid else f.gid",
"new": "gid := p.gid",
"claim": "group changed though not set"
},
{
"file": "FsPerms/Model",
"def": "mkdirMode",
"old": "toMode p false",
"new": "toMode p true",
"claim": "override used: the failure no longer holds"
},
{
"file": "FsPerms/Model",
"def": "accessMode",
"old": "a ||| 4#32",
"new": "a ||| 1#32",
"claim": "read asked as execute"
},
{
"file": "FsPerms/Model",
"def": "accessMode",
"old": "if mode &&& mExec ≠ 0#32 then a ||| 1#32 else a",
"new": "a",
"claim": "execute never asked"
}
]