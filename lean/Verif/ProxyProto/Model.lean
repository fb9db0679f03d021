import Verif.Num.Model
import Verif.Decimal.Text
/- Model of the PROXY protocol layer of `io/m_io_proxy_protocol.c`: the reader of a header that arrives in pieces, the writer,
and the read callback that hands out what was buffered behind the header.

The parser is the list of its unread bytes (`Verif.Parser` models the parser itself).  The conversion between the text and
the binary form of an address, `M_io_net_ipaddr_to_bin` and `M_io_net_bin_to_ipaddr` of `io/net/m_io_net.c:1714-1760`, which
call the resolver library, is an arbitrary pair of functions `Env`.  The state machine (`Verif.StateMachine`) is a linear one:
what is left of it is the list of states still to run.  The timer, the events sent to the layer above and the text of the error
messages are left out; every error site has its own constructor. -/
namespace Verif.ProxyProto
open Verif.Chr

/-- `M_io_net_type_t`. -/
inductive Net
  | any
  | v4
  | v6
deriving DecidableEq, Repr

/-- `io/net/m_io_net.c:1714-1734` (the bytes are 4 or 16) and `1737-1760`. -/
structure Env where
  toBin : List UInt8 → Option (List UInt8)
  toText : List UInt8 → Option (List UInt8)

/-- `M_io_proxy_protocol_flags_t`. -/
structure Flags where
  v1 : Bool
  v2 : Bool
deriving DecidableEq, Repr

/-- The error sites of the reader. -/
inductive Err
  | notProxy | version | identity | noProto | badProto
  | srcMissing | srcBad | dstMissing | dstBad | sportMissing | sportBad | dportMissing | dportBad
  | v2Version | v2Command | v2Family | v2Short | v2Src | v2Dst | v2Sport | v2Dport
  | lower
deriving DecidableEq, Repr

/-- `struct M_io_handle`, `io/m_io_proxy_protocol.c:33-56`, as far as the reader uses it. -/
structure H where
  buf : List UInt8
  isLocal : Bool
  src : Option (List UInt8)
  dst : Option (List UInt8)
  sport : Nat
  dport : Nat
  net : Net
  dlen : Nat
deriving DecidableEq, Repr

/-- The result of a state function. -/
inductive St
  | wait
  | next (h : H)
  | done (h : H)
  | err (e : Err)
deriving DecidableEq, Repr

/-- The states of the two sub machines, `io/m_io_proxy_protocol.c:64-78`. -/
inductive Stage
  | header | proto | src | dst | sport | dport
  | v2header | v2addr | v2tlv
deriving DecidableEq, Repr

/-- `IDENTIFIER_V1`, `PROXY`. -/
def idV1 : List UInt8 := [80, 82, 79, 88, 89]

/-- `IDENTIFIER_V2`. -/
def idV2 : List UInt8 := [13, 10, 13, 10, 0, 13, 10, 81, 85, 73, 84, 10]

/-- `UNKNOWN\r\n`. -/
def unknown : List UInt8 := [85, 78, 75, 78, 79, 87, 78, 13, 10]

/-- `tcp4`. -/
def tcp4 : List UInt8 := [116, 99, 112, 52]

/-- `tcp6`. -/
def tcp6 : List UInt8 := [116, 99, 112, 54]

/-- `M_mem_mem`: where `pat` first occurs. -/
def find (pat : List UInt8) : List UInt8 → Option Nat
  | [] => none
  | c :: s => if pat.isPrefixOf (c :: s) then some 0 else (find pat s).map (· + 1)

/-- `M_parser_consume`, `base/data/m_parser.c:901-945`: nothing is consumed when there is less. -/
def consume (b : List UInt8) (n : Nat) : List UInt8 := if n > b.length then b else b.drop n

/-- `M_parser_consume_until` with `eat_pat`, `base/data/m_parser.c:964-984`: the bytes consumed, the rest. -/
def consumeUntil (b pat : List UInt8) : Nat × List UInt8 :=
  match find pat b with
  | none => (0, b)
  | some n => (n + pat.length, b.drop (n + pat.length))

/-- `M_parser_read_str_until` into `cap + 1` bytes without `eat_pat`, `base/data/m_parser.c:1353-1366` and `1233-1252`, with
`124-145`: what was read (nothing when it does not fit), the rest. -/
def readUntil (b pat : List UInt8) (cap : Nat) : List UInt8 × List UInt8 :=
  match find pat b with
  | none => ([], b)
  | some n => if n > cap then ([], b.drop n) else (b.take n, b.drop n)

/-- The C string in a buffer: up to the first NUL. -/
def cstr (b : List UInt8) : List UInt8 := b.takeWhile (· ≠ 0)

/-- `M_str_to_uint32`, `base/data/m_str_num.c:371-378`. -/
def toU32 (s : List UInt8) : Nat :=
  match Num.toUint32Ex (cstr s ++ [0]) (cstr s).length 10 with
  | some (.invalid, _) => 0
  | some (_, some (v, _)) => v
  | _ => 0

/-- `io/m_io_proxy_protocol.c:154-172`, `state_v1_header`. -/
def stHeader (h : H) : St :=
  if h.buf.length < 6 then .wait
  else if (consumeUntil h.buf [32]).1 ≠ 6 then .err .identity
  else .next { h with buf := (consumeUntil h.buf [32]).2 }

/-- The protocol name, `io/m_io_proxy_protocol.c:199-206`. -/
def protoNet (s : List UInt8) : Option Net :=
  if (cstr s).map toLower = tcp4 then some .v4 else if (cstr s).map toLower = tcp6 then some .v6 else none

/-- `io/m_io_proxy_protocol.c:174-212`, `state_v1_protocol`. -/
def stProto (h : H) : St :=
  if h.buf.length < 9 then .wait
  else if unknown.isPrefixOf h.buf then .done { h with isLocal := true, buf := consume h.buf 9 }
  else if (readUntil h.buf [32] 15).1 = [] then .err .noProto
  else match protoNet (readUntil h.buf [32] 15).1 with
    | none => .err .badProto
    | some n => .next { h with isLocal := false, net := n, buf := consume (readUntil h.buf [32] 15).2 1 }

/-- The lines common to `state_v1_source_ipaddr`, `state_v1_dest_ipaddr`, `state_v1_source_port` and `state_v1_dest_port`,
`io/m_io_proxy_protocol.c:224-238`, `262-276`, `300-312`, `337-349`: the field and the rest, or `none` with "keep waiting". -/
def field (b pat : List UInt8) (cap limit : Nat) : Option (List UInt8 × List UInt8) × Bool :=
  if (readUntil b pat cap).1 = [] then
    (none, ¬ ((readUntil b pat cap).2.length ≥ limit ∨ (readUntil b pat cap).2.length ≠ b.length))
  else (some (readUntil b pat cap), false)

/-- `io/m_io_proxy_protocol.c:214-250`, `state_v1_source_ipaddr`. -/
def stSrc (env : Env) (h : H) : St :=
  match field h.buf [32] 63 40 with
  | (none, w) => if w then .wait else .err .srcMissing
  | (some f, _) =>
    if (env.toBin (cstr f.1)).isNone then .err .srcBad
    else .next { h with src := some (cstr f.1), buf := consume f.2 1 }

/-- `io/m_io_proxy_protocol.c:252-288`, `state_v1_dest_ipaddr`. -/
def stDst (env : Env) (h : H) : St :=
  match field h.buf [32] 63 40 with
  | (none, w) => if w then .wait else .err .dstMissing
  | (some f, _) =>
    if (env.toBin (cstr f.1)).isNone then .err .dstBad
    else .next { h with dst := some (cstr f.1), buf := consume f.2 1 }

/-- `io/m_io_proxy_protocol.c:290-325`, `state_v1_source_port`. -/
def stSport (h : H) : St :=
  match field h.buf [32] 7 5 with
  | (none, w) => if w then .wait else .err .sportMissing
  | (some f, _) =>
    if toU32 f.1 % 65536 = 0 ∨ toU32 f.1 > 65535 then .err .sportBad
    else .next { h with sport := toU32 f.1 % 65536, buf := consume f.2 1 }

/-- `io/m_io_proxy_protocol.c:327-362`, `state_v1_dest_port`. -/
def stDport (h : H) : St :=
  match field h.buf [13, 10] 7 5 with
  | (none, w) => if w then .wait else .err .dportMissing
  | (some f, _) =>
    if toU32 f.1 % 65536 = 0 ∨ toU32 f.1 > 65535 then .err .dportBad
    else .next { h with dport := toU32 f.1 % 65536, buf := consume f.2 2 }

/-- Byte `i` of the buffer; only read when it is there. -/
def byteAt (b : List UInt8) (i : Nat) : Nat := (b.getD i 0).toNat

/-- Two bytes in network order, `M_ntoh16`. -/
def be16 (b : List UInt8) (i : Nat) : Nat := byteAt b i * 256 + byteAt b (i + 1)

/-- The family byte, `io/m_io_proxy_protocol.c:404-421`. -/
def famNet (f : Nat) : Option Net :=
  if f = 0 then some .any else if f = 17 then some .v4 else if f = 33 then some .v6 else none

/-- `io/m_io_proxy_protocol.c:427-446`, the length check with the end of the header state. -/
def headerEnd (h : H) : St :=
  match h.net with
  | .v4 => if h.dlen < 12 then .err .v2Short else .next h
  | .v6 => if h.dlen < 36 then .err .v2Short else .next h
  | .any => .done { h with buf := consume h.buf h.dlen }

/-- `io/m_io_proxy_protocol.c:365-447`, `state_v2_header`. -/
def stV2Header (h : H) : St :=
  if h.buf.length < 16 then .wait
  else if byteAt h.buf 12 / 16 ≠ 2 then .err .v2Version
  else if byteAt h.buf 12 % 16 ≠ 0 ∧ byteAt h.buf 12 % 16 ≠ 1 then .err .v2Command
  else match famNet (byteAt h.buf 13) with
    | none => .err .v2Family
    | some n => headerEnd { h with isLocal := byteAt h.buf 12 % 16 = 0, net := n, dlen := be16 h.buf 14, buf := h.buf.drop 16 }

/-- `io/m_io_proxy_protocol.c:449-534`, `state_v2_ipaddr`, for addresses of `n` bytes. -/
def v2Addr (env : Env) (n : Nat) (h : H) : St :=
  if h.buf.length < 2 * n + 4 then .wait
  else match env.toText (h.buf.take n) with
    | none => .err .v2Src
    | some s => match env.toText ((h.buf.drop n).take n) with
      | none => .err .v2Dst
      | some d =>
        if be16 h.buf (2 * n) = 0 then .err .v2Sport
        else if be16 h.buf (2 * n + 2) = 0 then .err .v2Dport
        else .next { h with src := some s, dst := some d, sport := be16 h.buf (2 * n), dport := be16 h.buf (2 * n + 2), dlen := h.dlen - (2 * n + 4), buf := h.buf.drop (2 * n + 4) }

/-- `io/m_io_proxy_protocol.c:449-534`, `state_v2_ipaddr`. -/
def stV2Addr (env : Env) (h : H) : St := if h.net = .v4 then v2Addr env 4 h else v2Addr env 16 h

/-- `io/m_io_proxy_protocol.c:536-555`, `state_v2_tlv`. -/
def stV2Tlv (h : H) : St :=
  if h.dlen = 0 then .done h
  else if h.buf.length < h.dlen then .wait
  else .next { h with buf := consume h.buf h.dlen, dlen := 0 }

/-- The function of a state, `io/m_io_proxy_protocol.c:566-580`. -/
def exec (env : Env) : Stage → H → St
  | .header => stHeader
  | .proto => stProto
  | .src => stSrc env
  | .dst => stDst env
  | .sport => stSport
  | .dport => stDport
  | .v2header => stV2Header
  | .v2addr => stV2Addr env
  | .v2tlv => stV2Tlv

/-- `io/m_io_proxy_protocol.c:566-574`, the first sub machine. -/
def stagesV1 : List Stage := [.header, .proto, .src, .dst, .sport, .dport]

/-- `io/m_io_proxy_protocol.c:577-582`, the second sub machine. -/
def stagesV2 : List Stage := [.v2header, .v2addr, .v2tlv]

/-- Where the reader is: still looking for the version, or at the states that remain. -/
inductive Pos
  | version
  | rest (ss : List Stage)
deriving DecidableEq, Repr

/-- How a run of the machine ends. -/
inductive Out
  | wait (p : Pos) (h : H)
  | done (h : H)
  | err (e : Err)
deriving DecidableEq, Repr

/-- `M_state_machine_run` on a linear sub machine; its end, `M_STATE_MACHINE_LINEAR_END`, is the end of the whole machine
(`state_v1_post`, `io/m_io_proxy_protocol.c:143-151`; the second sub machine is the last state). -/
def runList (env : Env) : List Stage → H → Out
  | [], h => .done h
  | s :: ss, h => match exec env s h with
    | .wait => .wait (.rest (s :: ss)) h
    | .next h => runList env ss h
    | .done h => .done h
    | .err e => .err e

/-- `io/m_io_proxy_protocol.c:114-141`, `state_determine_version`, with the sub machine it selects. -/
def runVersion (env : Env) (fl : Flags) (h : H) : Out :=
  if h.buf.length < 12 then .wait .version h
  else if idV1.isPrefixOf h.buf then
    if fl.v2 ∧ ¬ fl.v1 then .err .version else runList env stagesV1 h
  else if idV2.isPrefixOf h.buf then
    if fl.v1 ∧ ¬ fl.v2 then .err .version else runList env stagesV2 h
  else .err .notProxy

/-- `M_state_machine_run`, `io/m_io_proxy_protocol.c:696`. -/
def resume (env : Env) (fl : Flags) : Pos → H → Out
  | .version, h => runVersion env fl h
  | .rest ss, h => runList env ss h

/-- The layer on the accepting side: the error is the `M_IO_STATE_ERROR` state. -/
inductive Conn
  | connecting (p : Pos) (h : H)
  | connected (h : H)
  | failed (e : Err)
deriving DecidableEq, Repr

/-- `M_io_proxy_protocol_inbound_add`, `io/m_io_proxy_protocol.c:1004-1010`. -/
def fresh : Conn := .connecting .version ⟨[], true, none, none, 0, 0, .any, 0⟩

/-- `io/m_io_proxy_protocol.c:662-716`, `M_io_proxy_protocol_process_inbound` on a read event: `data` is what the reads of
681-692 return before one is not successful, `critical` whether that one is a critical error.  Once connected the layer
ignores events (884-885); what arrives then is left to the read callback, here behind what is buffered. -/
def onRead (env : Env) (fl : Flags) (c : Conn) (data : List UInt8) (critical : Bool) : Conn :=
  match c with
  | .connecting p h =>
    if critical then .failed .lower
    else match resume env fl p { h with buf := h.buf ++ data } with
      | .wait p h => .connecting p h
      | .done h => .connected h
      | .err e => .failed e
  | .connected h => .connected { h with buf := h.buf ++ data }
  | .failed e => .failed e

/-- A sequence of read events without critical error. -/
def feed (env : Env) (fl : Flags) : Conn → List (List UInt8) → Conn
  | c, [] => c
  | c, d :: ds => feed env fl (onRead env fl c d false) ds

/-- What a read of the layer below returns. -/
inductive Lower
  | data (d : List UInt8)
  | again
  | critical
deriving DecidableEq, Repr

/-- `io/m_io_proxy_protocol.c:613-660`, `M_io_proxy_protocol_read_cb` for at most `size` bytes: what the caller gets, what stays
buffered.  `data` is at most what the layer below was asked for. -/
def readCb (buf : List UInt8) (size : Nat) (lower : Lower) : Lower × List UInt8 :=
  if buf = [] then (lower, [])
  else if min buf.length size = 0 then (.critical, buf)
  else if size - min buf.length size = 0 then (.data (buf.take (min buf.length size)), buf.drop (min buf.length size))
  else match lower with
    | .data d => (.data (buf.take (min buf.length size) ++ d), buf.drop (min buf.length size))
    | .again => (.data (buf.take (min buf.length size)), buf.drop (min buf.length size))
    | .critical => (.critical, buf.drop (min buf.length size))

/-- The outbound handle. -/
structure W where
  isLocal : Bool
  src : List UInt8
  dst : List UInt8
  sport : Nat
  dport : Nat
  net : Net
deriving DecidableEq, Repr

/-- `M_io_proxy_protocol_outbound_add`, `io/m_io_proxy_protocol.c:1040-1045`. -/
def freshW : W := ⟨true, [], [], 0, 0, .any⟩

/-- `io/m_io_proxy_protocol.c:1184-1256`, `M_io_proxy_protocol_set_source_endpoints` on an outbound layer (an absent address is
the empty one): the result, the handle, and how often the caller still holds the lock of the connection, which
`M_io_layer_acquire` (`io/m_io.c:155-187`) took and no path releases. -/
def setEndpoints (env : Env) (w : W) (src dst : List UInt8) (sport dport : Nat) : Bool × W × Nat :=
  if (src = [] ∧ dst ≠ []) ∨ (src ≠ [] ∧ dst = []) then (false, w, 1)
  else if src = [] then (true, ⟨true, [], [], 0, 0, .any⟩, 1)
  else if sport = 0 ∨ dport = 0 then (false, w, 1)
  else match env.toBin src with
    | none => (false, w, 1)
    | some s => match env.toBin dst with
      | none => (false, w, 1)
      | some d =>
        if (s.length = 4 ∧ d.length ≠ 4) ∨ (s.length ≠ 4 ∧ d.length ≠ 16) then (false, w, 1)
        else (true, ⟨false, src, dst, sport, dport, if s.length = 4 then .v4 else .v6⟩, 1)

/-- `M_hton16` and the two bytes added. -/
def put16 (n : Nat) : List UInt8 := [UInt8.ofNat (n / 256), UInt8.ofNat (n % 256)]

/-- `io/m_io_proxy_protocol.c:752-787`, `M_io_proxy_protocol_build_proxy_message_v1`. -/
def buildV1 (w : W) : List UInt8 :=
  idV1 ++ [32] ++
    (if w.isLocal then unknown
     else (if w.net = .v4 then [84, 67, 80, 52, 32] else [84, 67, 80, 54, 32]) ++ w.src ++ [32] ++ w.dst ++ [32] ++
       Decimal.decStr w.sport ++ [32] ++ Decimal.decStr w.dport ++ [13, 10])

/-- `io/m_io_proxy_protocol.c:789-848`, `M_io_proxy_protocol_build_proxy_message_v2`.  When a conversion fails (it was checked
by `setEndpoints`) `addr_len` is 0. -/
def buildV2 (env : Env) (w : W) : List UInt8 :=
  idV2 ++ [if w.isLocal then 32 else 33] ++ [if w.isLocal then 0 else if w.net = .v4 then 17 else 33] ++
    put16 (if w.isLocal then 0 else if w.net = .v4 then 12 else 36) ++
    (if w.isLocal then []
     else (env.toBin w.src).getD [] ++ (env.toBin w.dst).getD [] ++ put16 w.sport ++ put16 w.dport)

/-- `io/m_io_proxy_protocol.c:850-859`, `M_io_proxy_protocol_build_proxy_message`. -/
def build (env : Env) (fl : Flags) (w : W) : List UInt8 :=
  if fl.v2 ∨ ¬ (fl.v1 ∨ fl.v2) then buildV2 env w else buildV1 w

/-- The sending side: what is still to send, what the layer below has taken, and whether it is connected. -/
structure Send where
  buf : List UInt8
  sent : List UInt8
  connected : Bool
  error : Bool
deriving DecidableEq, Repr

/-- The result of one write to the layer below: it took `n` of the bytes offered, would block, or failed. -/
inductive Wr
  | took (n : Nat)
  | block
  | critical
deriving DecidableEq, Repr

/-- The loop of `io/m_io_proxy_protocol.c:723-734`, on the results of the writes below; past the last result the layer below
would block.  A layer takes no more than it is offered. -/
def writeLoop (s : Send) : List Wr → Send
  | [] => s
  | .took n :: rs =>
    let t : Send := { s with buf := s.buf.drop n, sent := s.sent ++ s.buf.take n }
    if t.buf.length > 0 then writeLoop t rs else t
  | .block :: _ => s
  | .critical :: _ => { s with error := true }

/-- `io/m_io_proxy_protocol.c:718-750`, `write_event_header_data`. -/
def writeHeader (s : Send) (rs : List Wr) : Send :=
  let t := writeLoop s rs
  if t.buf.length = 0 then { t with connected := true } else t

/-- `io/m_io_proxy_protocol.c:861-877`, `M_io_proxy_protocol_process_outbound`, with 884-885: the connect event when
`isConnect`, else the write event. -/
def onEvent (msg : List UInt8) (s : Send) (isConnect : Bool) (rs : List Wr) : Send :=
  if s.connected then s
  else if isConnect ∧ s.buf.length = 0 then writeHeader { s with buf := msg } rs
  else if ¬ isConnect ∧ s.buf.length ≠ 0 then writeHeader s rs
  else s

/-- `io/m_io_proxy_protocol.c:930-957`, `M_io_proxy_protocol_reset_cb`, on the accepting side: what the getters report
afterwards. -/
def resetH (h : H) : H := { h with buf := [], src := none, dst := none, sport := 0, dport := 0, net := .any, dlen := 0 }

end Verif.ProxyProto
