[
{
"file": "ProxyProto/Model",
"def": "stHeader",
"old": "if h.buf.length < 6 then .wait\n  else if (consumeUntil h.buf [32]).1 ≠ 6",
"new": "if h.buf.length < 6 then .wait\n  else if (consumeUntil h.buf [32]).1 = 0",
"claim": "PROXYxyz TCP4 ... is accepted"
},
{
"file": "ProxyProto/Model",
"def": "stProto",
"old": "if h.buf.length < 9 then .wait",
"new": "if h.buf.length < 8 then .wait",
"claim": "UNKNOWN cut before its line feed is refused"
},
{
"file": "ProxyProto/Model",
"def": "stProto",
"old": "isLocal := true, buf := consume h.buf 9",
"new": "isLocal := true, buf := consume h.buf 8",
"claim": "the line feed reaches the application"
},
{
"file": "ProxyProto/Model",
"def": "stProto",
"old": "isLocal := false, net := n,",
"new": "net := n,",
"claim": "a relayed connection is reported as local"
},
{
"file": "ProxyProto/Model",
"def": "protoNet",
"old": "= tcp6 then some .v6",
"new": "= tcp6 then some .v4",
"claim": "family of a TCP6 header reported wrong"
},
{
"file": "ProxyProto/Model",
"def": "stSrc",
"old": "buf := consume f.2 1 }",
"new": "buf := f.2 }",
"claim": "the destination address starts with the blank"
},
{
"file": "ProxyProto/Model",
"def": "stDst",
"old": "dst := some (cstr f.1)",
"new": "src := some (cstr f.1)",
"claim": "destination stored as source"
},
{
"file": "ProxyProto/Model",
"def": "stSport",
"old": "sport := toU32 f.1 % 65536, buf",
"new": "dport := toU32 f.1 % 65536, buf",
"claim": "source port stored as destination port"
},
{
"file": "ProxyProto/Model",
"def": "stDport",
"old": "buf := consume f.2 2 }",
"new": "buf := consume f.2 1 }",
"claim": "line feed reaches the application"
},
{
"file": "ProxyProto/Model",
"def": "stSport",
"old": "∨ toU32 f.1 > 65535 then .err .sportBad",
"new": "∨ toU32 f.1 > 99999 then .err .sportBad",
"claim": "port 70000 accepted as 4464"
},
{
"file": "ProxyProto/Model",
"def": "stV2Header",
"old": "byteAt h.buf 12 / 16 ≠ 2",
"new": "byteAt h.buf 12 / 16 < 2",
"claim": "version 3 accepted"
},
{
"file": "ProxyProto/Model",
"def": "stV2Header",
"old": "isLocal := byteAt h.buf 12 % 16 = 0",
"new": "isLocal := byteAt h.buf 12 % 16 = 1",
"claim": "relayed and local swapped"
},
{
"file": "ProxyProto/Model",
"def": "stV2Header",
"old": "if h.buf.length < 16 then .wait",
"new": "if h.buf.length < 14 then .wait",
"claim": "length read before it arrived"
},
{
"file": "ProxyProto/Model",
"def": "headerEnd",
"old": "if h.dlen < 12 then",
"new": "if h.dlen < 8 then",
"claim": "header too short for its addresses accepted"
},
{
"file": "ProxyProto/Model",
"def": "v2Addr",
"old": "be16 h.buf (2 * n + 2), dlen",
"new": "be16 h.buf (2 * n), dlen",
"claim": "destination port is the source port"
},
{
"file": "ProxyProto/Model",
"def": "v2Addr",
"old": "dlen := h.dlen - (2 * n + 4)",
"new": "dlen := h.dlen - 2 * n",
"claim": "four bytes of data taken as extension"
},
{
"file": "ProxyProto/Model",
"def": "v2Addr",
"old": "match env.toText ((h.buf.drop n).take n)",
"new": "match env.toText (h.buf.take n)",
"claim": "destination is the source"
},
{
"file": "ProxyProto/Model",
"def": "v2Addr",
"old": "if h.buf.length < 2 * n + 4 then .wait",
"new": "if h.buf.length < 2 * n then .wait",
"claim": "ports read before they arrived"
},
{
"file": "ProxyProto/Model",
"def": "stV2Tlv",
"old": "else if h.buf.length < h.dlen then .wait",
"new": "else if h.buf.length < h.dlen then .done h",
"claim": "extensions cut in two reach the application"
},
{
"file": "ProxyProto/Model",
"def": "runVersion",
"old": "if h.buf.length < 12 then .wait",
"new": "if h.buf.length < 5 then .wait",
"claim": "a binary header cut after five bytes is refused"
},
{
"file": "ProxyProto/Model",
"def": "runVersion",
"old": "if fl.v2 ∧ ¬ fl.v1 then .err",
"new": "if fl.v1 ∧ ¬ fl.v2 then .err",
"claim": "a text header accepted though only binary allowed"
},
{
"file": "ProxyProto/Model",
"def": "readCb",
"old": "| .again => (.data (buf.take (min buf.length size)),",
"new": "| .again => (.again,",
"claim": "buffered data lost when nothing more is there"
},
{
"file": "ProxyProto/Model",
"def": "readCb",
"old": "| .data d => (.data (buf.take (min buf.length size) ++ d),",
"new": "| .data d => (.data (d ++ buf.take (min buf.length size)),",
"claim": "order of data changed"
},
{
"file": "ProxyProto/Model",
"def": "setEndpoints",
"old": "if (s.length = 4 ∧ d.length ≠ 4) ∨",
"new": "if (s.length = 4 ∧ d.length = 4) ∨",
"claim": "mixed families accepted, equal ones refused"
},
{
"file": "ProxyProto/Model",
"def": "setEndpoints",
"old": "else if sport = 0 ∨ dport = 0 then",
"new": "else if sport = 0 then",
"claim": "destination port 0 accepted"
},
{
"file": "ProxyProto/Model",
"def": "setEndpoints",
"old": "⟨false, src, dst, sport, dport, if",
"new": "⟨false, src, dst, dport, sport, if",
"claim": "ports swapped"
},
{
"file": "ProxyProto/Model",
"def": "put16",
"old": "[UInt8.ofNat (n / 256), UInt8.ofNat (n % 256)]",
"new": "[UInt8.ofNat (n % 256), UInt8.ofNat (n / 256)]",
"claim": "ports in the wrong byte order"
},
{
"file": "ProxyProto/Model",
"def": "buildV1",
"old": "[84, 67, 80, 52, 32] else",
"new": "[84, 67, 80, 54, 32] else",
"claim": "family written wrong"
},
{
"file": "ProxyProto/Model",
"def": "buildV1",
"old": "Decimal.decStr w.sport ++ [32] ++ Decimal.decStr w.dport",
"new": "Decimal.decStr w.dport ++ [32] ++ Decimal.decStr w.sport",
"claim": "ports written in the wrong order"
},
{
"file": "ProxyProto/Model",
"def": "buildV2",
"old": "if w.isLocal then 32 else 33",
"new": "if w.isLocal then 33 else 32",
"claim": "command written wrong"
},
{
"file": "ProxyProto/Model",
"def": "buildV2",
"old": "if w.net = .v4 then 12 else 36",
"new": "if w.net = .v4 then 8 else 32",
"claim": "length without the ports"
},
{
"file": "ProxyProto/Model",
"def": "build",
"old": "if fl.v2 ∨ ¬ (fl.v1 ∨ fl.v2) then buildV2",
"new": "if fl.v1 ∨ ¬ (fl.v1 ∨ fl.v2) then buildV2",
"claim": "wrong form sent"
},
{
"file": "ProxyProto/Model",
"def": "writeLoop",
"old": "sent := s.sent ++ s.buf.take n }",
"new": "sent := s.sent ++ s.buf.take (n + 1) }",
"claim": "a byte sent twice"
},
{
"file": "ProxyProto/Model",
"def": "writeHeader",
"old": "if t.buf.length = 0 then { t with connected := true }",
"new": "if t.error = false then { t with connected := true }",
"claim": "connected before the header was written"
},
{
"file": "ProxyProto/Model",
"def": "onEvent",
"old": "else if isConnect ∧ s.buf.length = 0 then writeHeader",
"new": "else if s.buf.length = 0 ∨ isConnect then writeHeader",
"claim": "header sent again on a second event"
},
{
"file": "ProxyProto/Model",
"def": "resetH",
"old": "buf := [], src := none",
"new": "isLocal := true, buf := [], src := none",
"claim": "(repair) a reset says local again: the negation must fail",
"comment": "repair of a recorded defect"
},
{
"file": "ProxyProto/Model",
"def": "field",
"old": "2.length ≥ limit ∨",
"new": "2.length ≥ limit + 3 ∨",
"claim": "(repair) later limit: the set of refused cuts changes",
"comment": "change of a recorded defect"
},
{
"file": "ProxyProto/Model",
"def": "onRead",
"old": "if critical then .failed .lower",
"new": "if critical ∧ data = [] then .failed .lower",
"claim": "(repair) data before a close is processed",
"comment": "repair of a recorded defect"
}
]