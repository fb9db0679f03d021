[
{"file":"Bithacks/Model","def":"isPow64","old":"if n = 0 then false else if n &&& (n - 1) ≠ 0 then false else true\n\n/-- `base/math/m_bithacks.c:68","new":"if n &&& (n - 1) ≠ 0 then false else true\n\n/-- `base/math/m_bithacks.c:68","claim":"C34: zero is not a power of two"},
{"file":"Bithacks/Model","def":"smear64","old":"let n := n ||| (n >>> 16)\n  n ||| (n >>> 32)","new":"n ||| (n >>> 32)","claim":"C34: rounding of 64-bit words"},
{"file":"Bithacks/Model","def":"roundUp32","old":"let n := (n + 2 ^ 32 - 1) % 2 ^ 32\n  (smear32 n","new":"(smear32 n","claim":"C34: powers of two round up to themselves"},
{"file":"Bithacks/Model","def":"tab64","old":"44, 24, 15,  8","new":"44, 24, 8,  15","claim":"C34: log2 table"},
{"file":"Bithacks/Model","def":"tab32","old":"0,  1, 28,  2,","new":"0,  1, 28,  3,","claim":"C34: log2 table"},
{"file":"Bithacks/Model","def":"signExtend","old":"1 <<< (num - 1)","new":"1 <<< num","claim":"C34: sign extension"},
{"file":"Bithacks/Model","def":"b6","old":"def b6 (n : Nat) : List Nat := b4 n ++ b4 (n + 1) ++ b4 (n + 1) ++ b4 (n + 2)","new":"def b6 (n : Nat) : List Nat := b4 n ++ b4 (n + 1) ++ b4 (n + 2) ++ b4 (n + 2)","claim":"C34: popcount table"},
{"file":"Crc/Model","def":"t16","old":"0x8108, 0x9129","new":"0x8108, 0x9128","claim":"C35: CRC-16 table"},
{"file":"Crc/Model","def":"t32","old":"0x5A05DF1B","new":"0x5A05DF1A","claim":"C35: CRC-32 table"},
{"file":"Crc/Model","def":"crc16","old":"0xFFFF","new":"0x0000","claim":"C35: initial register"},
{"file":"Crc/Model","def":"crc32","old":".map (~~~ ·)","new":"","claim":"C35: final complement"},
{"file":"Crc/Model","def":"crc32","old":"(val >>> 8) ^^^ BitVec.ofNat 32 t","new":"BitVec.ofNat 32 t","claim":"C35: register shift"},
{"file":"Mem/Model","def":"eqLoop","old":"acc ||| (a ^^^ b)","new":"acc ^^^ (a ^^^ b)","claim":"C36: differences must not cancel"},
{"file":"Mem/Model","def":"memLoop","old":"memLoop hay needle first fuel (i + 1)","new":"memLoop hay needle first fuel (i + needle.length)","claim":"C36: overlapping candidates"},
{"file":"Mem/Model","def":"rmem","old":"(hay.length - needle.length + 1)","new":"(hay.length - needle.length)","claim":"C36: occurrence at the end"},
{"file":"Mem/Model","def":"cmpsort","old":"else if a.length > b.length then 1","new":"else if a.length > b.length then -1","claim":"C36: antisymmetry"},
{"file":"Mem/Model","def":"swap64","old":"((n &&& 0x00ff000000000000#64) >>> 40)","new":"((n &&& 0x00ff000000000000#64) >>> 48)","claim":"C37: byte order"},
{"file":"Mem/Model","def":"htol32","old":"def htol32 (e : Endian) (h : BitVec 32) : BitVec 32 := if e = .little","new":"def htol32 (e : Endian) (h : BitVec 32) : BitVec 32 := if e = .big","claim":"C37: little endian"}
]
