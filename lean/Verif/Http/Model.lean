import Verif.Parser.Scan
import Verif.Str.Model
import Verif.Num.Model
/- Model of the streaming HTTP reader `formats/http/m_http_reader.c`.

A parser is the list of the bytes that are left in it.  The functions return the bytes left, the new state of the reader and
the callbacks made, in order; what the user's callbacks return is a function `cb` of the callback and its arguments.  A C
string made from received bytes ends at their first zero byte (`cstr`), and a null string is `none`.  Counters (`size_t`)
are unbounded; they are below `2^63` or below the length of the stream.  Simplifications: the validity of a request target
(`M_http_set_uri`, `formats/http/m_http_uri.c`) is a parameter `uriOk`; `M_parser_compare_str` with a limit equal to the length of its
text (`base/data/m_parser.c:555-583`) is a test for a prefix; memory that was never written is treated like memory
outside the allocation (`.ub`); allocation does not fail. -/
namespace Verif.Http
open Verif.Parser (Scan.untilLen Scan.split Scan.whitespace Scan.boundary)

/-- `M_http_reader_step_t`, `formats/http/m_http_reader_int.h:32-46`. -/
inductive Step
  | unknown | startLine | header | body | chunkStart | chunkData | preamble | partHeader | partData | checkEnd | epilogue | trailer | done
deriving DecidableEq, Repr

/-- `M_http_data_format_t`, `include/mstdlib/formats/m_http.h`. -/
inductive Format
  | unknown | none | body | chunked | multipart
deriving DecidableEq, Repr

/-- `M_http_message_type_t`. -/
inductive Kind
  | unknown | request | response
deriving DecidableEq, Repr

/-- `M_http_version_t`. -/
inductive Version
  | v10 | v11
deriving DecidableEq, Repr

/-- `M_http_method_t`. -/
inductive Method
  | options | get | head | post | put | delete | trace | connect | patch
deriving DecidableEq, Repr

/-- The members of `M_http_error_t` (`include/mstdlib/formats/m_http.h:84-116`) that the functions of the reader return;
`user` is the error of a callback and `ub` undefined behaviour. -/
inductive Res
  | ok | invalidUse
  | uri | startLength | startMalformed | unknownVersion | method
  | headerLength | headerFold | headerInvalid | headerDuplicate
  | chunkStartLength | chunkLength | chunkMalformed | chunkExtension | chunkDataMalformed
  | lengthMalformed | notHttp
  | noBoundary | multipartMissing | multipartMissingData | multipartInvalid
  | user (code : Nat)
  | ub
deriving DecidableEq, Repr

/-- What `M_http_reader_read` returns: the members of `M_http_error_t` for a message that is complete, that may go on, and
that is not complete, or an error. -/
inductive Result
  | success | morePossible | moreData
  | error (e : Res)
deriving DecidableEq, Repr

/-- A callback of `struct M_http_reader_callbacks` and its arguments. -/
inductive Ev
  | request (v : Version) (m : Method) (uri : List UInt8)
  | response (v : Version) (code : Nat) (reason : Option (List UInt8))
  | headerFull (k : List UInt8) (v : Option (List UInt8))
  | header (k : List UInt8) (v : Option (List UInt8))
  | headerDone (f : Format)
  | body (d : List UInt8)
  | bodyDone
  | chunkExt (k : List UInt8) (v : Option (List UInt8)) (i : Nat)
  | chunkExtDone (i : Nat)
  | chunkData (d : List UInt8) (i : Nat)
  | chunkDataDone (i : Nat)
  | chunkFinished
  | trailerFull (k : List UInt8) (v : Option (List UInt8))
  | trailer (k : List UInt8) (v : Option (List UInt8))
  | trailerDone
  | preamble (d : List UInt8)
  | preambleDone
  | partHeaderFull (k : List UInt8) (v : Option (List UInt8)) (i : Nat)
  | partHeader (k : List UInt8) (v : Option (List UInt8)) (i : Nat)
  | partHeaderDone (i : Nat)
  | partData (d : List UInt8) (i : Nat)
  | partDataDone (i : Nat)
  | partsFinished
  | epilogue (d : List UInt8)
  | epilogueDone
deriving DecidableEq, Repr

/-- `struct M_http_reader`, `formats/http/m_http_reader_int.h:48-66`, without the callbacks and flags; the null boundary is `[]`. -/
structure St where
  step : Step
  format : Format
  kind : Kind
  noBody : Bool
  haveLen : Bool
  bodyLen : Nat
  seen : Nat
  headerLen : Nat
  part : Nat
  boundary : List UInt8
  havePart : Bool
  haveEnd : Bool
  haveEpilogue : Bool
deriving DecidableEq, Repr

/-- The state `M_http_reader_create` makes, `formats/http/m_http_reader.c:1290-1298`. -/
def init : St :=
  { step := .unknown, format := .body, kind := .unknown, noBody := false, haveLen := false, bodyLen := 0, seen := 0,
    headerLen := 0, part := 0, boundary := [], havePart := false, haveEnd := false, haveEpilogue := false }

/-- What a function of the reader leaves behind: its result, `*full_read`, the state, the bytes left in the parser and the
callbacks made. -/
structure Out where
  res : Res
  full : Bool
  st : St
  rest : List UInt8
  evs : List Ev
deriving DecidableEq, Repr

/-- The user's callbacks: `none` is `M_HTTP_ERROR_SUCCESS`. -/
abbrev Cb := Ev → Option Nat

/-- The result of a callback. -/
def call (cb : Cb) (e : Ev) : Res :=
  match cb e with
  | none => .ok
  | some c => .user c

/-- The string a buffer of bytes with a terminator holds, `M_parser_read_strdup` (`base/data/m_parser.c:1435-1449`). -/
def cstr (bs : List UInt8) : List UInt8 := bs.takeWhile (· ≠ 0)

/-- `M_parser_read_strdup(parser, M_parser_len(parser))`: null for no bytes. -/
def strdup (bs : List UInt8) : Option (List UInt8) := if bs = [] then none else some (cstr bs)

/-- `"\r\n"`. -/
def crlf : List UInt8 := [13, 10]
/-- `"HTTP/"`. -/
def sHttp : List UInt8 := [72, 84, 84, 80, 47]
/-- `"--"`. -/
def dashes : List UInt8 := [45, 45]
/-- `"content-length"`. -/
def sContentLength : List UInt8 := [99, 111, 110, 116, 101, 110, 116, 45, 108, 101, 110, 103, 116, 104]
/-- `"transfer-encoding"`. -/
def sTransferEncoding : List UInt8 := [116, 114, 97, 110, 115, 102, 101, 114, 45, 101, 110, 99, 111, 100, 105, 110, 103]
/-- `"chunked"`. -/
def sChunked : List UInt8 := [99, 104, 117, 110, 107, 101, 100]
/-- `"content-type"`. -/
def sContentType : List UInt8 := [99, 111, 110, 116, 101, 110, 116, 45, 116, 121, 112, 101]
/-- `"multipart/form-data"`. -/
def sMultipart : List UInt8 := [109, 117, 108, 116, 105, 112, 97, 114, 116, 47, 102, 111, 114, 109, 45, 100, 97, 116, 97]
/-- `"boundary"`. -/
def sBoundary : List UInt8 := [98, 111, 117, 110, 100, 97, 114, 121]
/-- `"WWW-Authenticate"`. -/
def sWwwAuthenticate : List UInt8 := [87, 87, 87, 45, 65, 117, 116, 104, 101, 110, 116, 105, 99, 97, 116, 101]
/-- `"Proxy-Authorization"`. -/
def sProxyAuthorization : List UInt8 := [80, 114, 111, 120, 121, 45, 65, 117, 116, 104, 111, 114, 105, 122, 97, 116, 105, 111, 110]
/-- `"Date"`. -/
def sDate : List UInt8 := [68, 97, 116, 101]

/-- `MAX_START_LEN`, `formats/http/m_http_reader.c:31`. -/
def maxStart : Nat := 6144
/-- `MAX_HEADERS_SIZE`, `formats/http/m_http_reader.c:32`. -/
def maxHeaders : Nat := 8192

/-- `formats/http/m_http.c:186-198`, `M_http_version_from_str`; `none` is `M_HTTP_VERSION_UNKNOWN`. -/
def versionFromStr (s : List UInt8) : Option Version :=
  let s := if Str.eqMaxInt false s sHttp 5 then s.drop 5 else s
  if Str.eq false s [49, 46, 48] then some .v10 else if Str.eq false s [49, 46, 49] then some .v11 else none

/-- The names tested by `formats/http/m_http.c:214-244`, `M_http_method_from_str`, in order. -/
def methods : List (List UInt8 × Method) :=
  [([79, 80, 84, 73, 79, 78, 83], .options), ([71, 69, 84], .get), ([72, 69, 65, 68], .head), ([80, 79, 83, 84], .post),
   ([80, 85, 84], .put), ([68, 69, 76, 69, 84, 69], .delete), ([84, 82, 65, 67, 69], .trace),
   ([67, 79, 78, 78, 69, 67, 84], .connect), ([80, 65, 84, 67, 72], .patch)]

/-- `formats/http/m_http.c:214-244`, `M_http_method_from_str`. -/
def methodFromStr (s : List UInt8) : Option Method := (methods.find? fun m => Str.eq true s m.1).map (·.2)

/-- `formats/http/m_http_reader.c:222-237`, `M_http_read_version`. -/
def readVersion (p : List UInt8) : Res × Option Version :=
  if sHttp.isPrefixOf p = false then (.notHttp, none)
  else
    match versionFromStr ((strdup (p.drop 5)).getD []) with
    | none => (.unknownVersion, none)
    | some v => (.ok, some v)

/-- `formats/http/m_http_reader.c:243-264`: what `Content-Length` does in `M_http_read_header_validate_kv`. -/
def validateLength (st : St) (v : List UInt8) : Res × St :=
  if st.haveLen then (.headerDuplicate, st)
  else if st.format = .chunked then (.ok, { st with haveLen := false, bodyLen := 0 })
  else
    match Num.toInt64Ex (v ++ [0]) v.length 10 with
    | none => (.ub, st)
    | some (.success, some (i, _)) =>
      if i < 0 then (.lengthMalformed, st)
      else (.ok, { st with format := if i = 0 then .none else st.format, haveLen := true, bodyLen := i.toNat })
    | some _ => (.lengthMalformed, st)

/-- `formats/http/m_http_reader.c:266-276`: what a `Transfer-Encoding` of chunked does. -/
def validateEncoding (st : St) : Res × St :=
  if st.format = .chunked then (.headerDuplicate, st)
  else (.ok, { st with haveLen := false, bodyLen := if st.haveLen then 0 else st.bodyLen, format := .chunked })

/-- `formats/http/m_http_reader.c:278-305`: what `Content-Type` does. -/
def validateType (st : St) (v : List UInt8) : Res × St :=
  let multi := Str.eqMaxInt true v sMultipart 19
  if multi = true ∧ st.format = .multipart then (.headerDuplicate, st)
  else
    let st := if multi = true ∧ st.format ≠ .none then { st with format := .multipart } else st
    match Str.casestr v sBoundary with
    | none => (.ok, st)
    | some i =>
      match (v.drop i).dropWhile (· ≠ 61) with
      | [] => (.noBoundary, st)
      | _ :: b => if b = [] ∨ b.length > 70 then (.noBoundary, st) else (.ok, { st with boundary := dashes ++ b })

/-- `formats/http/m_http_reader.c:239-308`, `M_http_read_header_validate_kv`. -/
def validate (st : St) (k v : List UInt8) : Res × St :=
  let r1 := if Str.eq true k sContentLength then validateLength st v else (.ok, st)
  if r1.1 ≠ .ok then r1
  else
    let r2 := if Str.eq true k sTransferEncoding = true ∧ Str.eqStart true v sChunked = true then validateEncoding r1.2 else (.ok, r1.2)
    if r2.1 ≠ .ok then r2
    else if Str.eq true k sContentType then validateType r2.2 v
    else (.ok, r2.2)

/-- `formats/http/m_http_reader.c:310-325`, `M_http_read_header_full_process`: the callback made.  Its result is ignored by
the caller (line 563). -/
def fullEv (st : St) (k : List UInt8) (v : Option (List UInt8)) : List Ev :=
  match st.step with
  | .header => [.headerFull k v]
  | .trailer => [.trailerFull k v]
  | .partHeader => [.partHeaderFull k v st.part]
  | _ => []

/-- `formats/http/m_http_reader.c:327-349`, `M_http_read_header_process`. -/
def process (cb : Cb) (st : St) (k : List UInt8) (v : Option (List UInt8)) : Res × St × List Ev :=
  match st.step with
  | .header =>
    let r := validate st k (v.getD [])
    if r.1 ≠ .ok then (r.1, r.2, []) else (call cb (.header k v), r.2, [.header k v])
  | .trailer => (call cb (.trailer k v), st, [.trailer k v])
  | .partHeader => (call cb (.partHeader k v st.part), st, [.partHeader k v st.part])
  | _ => (.invalidUse, st, [])

/-- `formats/http/m_http_header.c:41-52`, `M_http_header_nosplit`. -/
def nosplit (k : List UInt8) : Bool :=
  k ≠ [] && (Str.eq true k sWwwAuthenticate || Str.eq true k sProxyAuthorization || Str.eq true k sContentType || Str.eq true k sDate)

/-- `formats/http/m_http_header.c:284-320`, `M_http_split_header_vals` of a value that is not empty; the inner `none` is NULL. -/
def splitVals (k v : List UInt8) : Option (Option (List (List UInt8))) :=
  if nosplit k then some (some [Str.trim v])
  else (Str.explode 44 v).map fun parts => if parts = [] then none else some (parts.map Str.trim)

/-- `formats/http/m_http_reader.c:582-600`: the loop of `M_http_read_header` over the values. -/
def valueLoop (cb : Cb) (k : List UInt8) : St → List (List UInt8) → Res × St × List Ev
  | st, [] => (.ok, st, [])
  | st, v :: vs =>
    let v := Str.trim v
    if v = [] then (.headerInvalid, st, [])
    else
      let r := process cb st k (some v)
      if r.1 ≠ .ok then r
      else
        let r2 := valueLoop cb k r.2.1 vs
        (r2.1, r2.2.1, r.2.2 ++ r2.2.2)

/-- `formats/http/m_http_reader.c:563-608`: the part of the loop of `M_http_read_header` that handles the key and value. -/
def headerKv (cb : Cb) (st : St) (k : List UInt8) (v : Option (List UInt8)) : Res × St × List Ev :=
  let f := fullEv st k v
  match v with
  | none =>
    let r := process cb st k none
    (r.1, r.2.1, f ++ r.2.2)
  | some s =>
    if s = [] then
      let r := process cb st k (some s)
      (r.1, r.2.1, f ++ r.2.2)
    else
      match splitVals k s with
      | none => (.ub, st, f)
      | some none => (.headerInvalid, st, f)
      | some (some vals) =>
        let r := valueLoop cb k st vals
        (r.1, r.2.1, f ++ r.2.2)

/-- `formats/http/m_http_reader.c:515-608`: what the loop of `M_http_read_header` does with a line. -/
def headerLine (cb : Cb) (st : St) (line : List UInt8) : Res × St × List Ev :=
  let st := { st with headerLen := st.headerLen + line.length }
  if st.headerLen > maxHeaders then (.headerLength, st, [])
  else if Scan.whitespace false false line ≠ 0 then (.headerFold, st, [])
  else
    match Scan.split line [58] 2 false true with
    | none => (.ub, st, [])
    | some none => (.headerInvalid, st, [])
    | some (some []) => (.headerInvalid, st, [])
    | some (some (key :: vs)) =>
      if key.getLast?.any Chr.isSpace then (.headerInvalid, st, [])
      else if key = [] then (.headerInvalid, st, [])
      else
        headerKv cb st (cstr key)
          (match vs with
            | [] => none
            | v :: _ => (strdup (v.drop (Scan.whitespace false false v))).map Str.trim)

/-- `formats/http/m_http_reader.c:483-625`, `M_http_read_header`: its loop.  `fuel` bounds the iterations; `readHeader` gives enough. -/
def headerLoop (cb : Cb) : Nat → St → List UInt8 → Out
  | 0, st, p => ⟨.ub, false, st, p, []⟩
  | fuel + 1, st, p =>
    if crlf.isPrefixOf p then ⟨.ok, true, st, p.drop 2, []⟩
    else
      match Scan.untilLen p crlf false with
      | none => ⟨.ub, false, st, p, []⟩
      | some 0 => ⟨.ok, false, st, p, []⟩
      | some (n + 1) =>
        let r := headerLine cb st (p.take (n + 1))
        if r.1 ≠ .ok then ⟨r.1, false, r.2.1, p.drop (n + 3), r.2.2⟩
        else
          let o := headerLoop cb fuel r.2.1 (p.drop (n + 3))
          { o with evs := r.2.2 ++ o.evs }

/-- `formats/http/m_http_reader.c:483-625`, `M_http_read_header`. -/
def readHeader (cb : Cb) (st : St) (p : List UInt8) : Out :=
  if p = [] then ⟨.ok, false, st, p, []⟩ else headerLoop cb (p.length + 1) st p

/-- `formats/http/m_http_reader.c:354-384`, `M_http_read_start_line_response`. -/
def startResponse (cb : Cb) (st : St) : List (List UInt8) → Res × St × List Ev
  | [a, b, c] =>
    match readVersion a with
    | (.ok, some v) =>
      if b = [] then (.startMalformed, st, [])
      else
        match Num.toUint64Ex b b.length 10 with
        | none => (.ub, st, [])
        | some (.success, some (code, _)) =>
          let e := Ev.response v (code % 4294967296) (strdup c)
          (call cb e, { st with kind := .response }, [e])
        | some _ => (.startMalformed, st, [])
    | (r, _) => (r, st, [])
  | _ => (.startMalformed, st, [])

/-- `formats/http/m_http_reader.c:387-436`, `M_http_read_start_line_request`. -/
def startRequest (cb : Cb) (uriOk : List UInt8 → Bool) (st : St) : List (List UInt8) → Res × St × List Ev
  | [a, b, c] =>
    match methodFromStr ((strdup a).getD []) with
    | none => (.method, st, [])
    | some m =>
      let st := if m = .get ∨ m = .head ∨ m = .delete ∨ m = .trace then { st with noBody := true } else st
      match strdup b with
      | none => (.uri, st, [])
      | some uri =>
        if uriOk uri = false then (.uri, st, [])
        else
          match readVersion c with
          | (.ok, some v) => (call cb (.request v m uri), { st with kind := .request }, [.request v m uri])
          | (r, _) => (r, st, [])
  | _ => (.startMalformed, st, [])

/-- `formats/http/m_http_reader.c:453-479` after the line is taken off: what `M_http_read_start_line` does with it. -/
def startLine (cb : Cb) (uriOk : List UInt8 → Bool) (st : St) (line : List UInt8) : Res × St × List Ev :=
  if line.length > maxStart then (.startLength, st, [])
  else
    match Scan.split line [32] 3 true false with
    | none => (.ub, st, [])
    | some none => (.startMalformed, st, [])
    | some (some parts) =>
      if parts.length ≠ 3 then (.startMalformed, st, [])
      else if sHttp.isPrefixOf (parts.headD []) then startResponse cb st parts
      else startRequest cb uriOk st parts

/-- `formats/http/m_http_reader.c:438-479`, `M_http_read_start_line`. -/
def readStartLine (cb : Cb) (uriOk : List UInt8 → Bool) (st : St) (p : List UInt8) : Out :=
  if p = [] then ⟨.ok, false, st, p, []⟩
  else
    match Scan.untilLen p crlf false with
    | none => ⟨.ub, false, st, p, []⟩
    | some 0 => ⟨.ok, false, st, p, []⟩
    | some (n + 1) =>
      let r := startLine cb uriOk st (p.take (n + 1))
      ⟨r.1, true, r.2.1, p.drop (n + 3), r.2.2⟩

/-- `formats/http/m_http_reader.c:630-659`, `M_http_read_body`. -/
def readBody (cb : Cb) (st : St) (p : List UInt8) : Out :=
  if st.haveLen = true ∧ (st.bodyLen = 0 ∨ st.bodyLen = st.seen) then ⟨.ok, true, st, p, []⟩
  else if p = [] then ⟨.ok, false, st, p, []⟩
  else
    let len := if st.haveLen then min p.length (st.bodyLen - st.seen) else p.length
    let e := Ev.body (p.take len)
    let st' := if call cb e = .ok then { st with seen := st.seen + len } else st
    ⟨call cb e, st'.haveLen = true ∧ st'.bodyLen = st'.seen, st', if call cb e = .ok then p.drop len else p, [e]⟩

/-- `formats/http/m_http_reader.c:734-755`: the loop of `M_http_read_chunk_start` over the extensions. -/
def extLoop (cb : Cb) (i : Nat) : List (List UInt8) → Res × List Ev
  | [] => (.ok, [])
  | x :: xs =>
    let go (k : List UInt8) (v : Option (List UInt8)) : Res × List Ev :=
      let e := Ev.chunkExt k v i
      if call cb e ≠ .ok then (call cb e, [e])
      else
        let r := extLoop cb i xs
        (r.1, e :: r.2)
    match Str.explode 61 x with
    | none => (.ub, [])
    | some [k] => go k none
    | some [k, v] => go k (some v)
    | some _ => (.chunkExtension, [])

/-- `formats/http/m_http_reader.c:728-764`: the extensions of `M_http_read_chunk_start`, given the text from the `;` on. -/
def chunkExts (cb : Cb) (i : Nat) (ext : List UInt8) : Res × List Ev :=
  match Str.explode 59 ((strdup ext).getD []) with
  | none => (.ub, [])
  | some [] => (.chunkExtension, [])
  | some parts =>
    let r := extLoop cb i parts
    if r.1 ≠ .ok then r else (call cb (.chunkExtDone i), r.2 ++ [.chunkExtDone i])

/-- `formats/http/m_http_reader.c:694-764`: what `M_http_read_chunk_start` does with a line. -/
def chunkLine (cb : Cb) (st : St) (line : List UInt8) : Res × St × List Ev :=
  if line.length > maxStart then (.chunkStartLength, st, [])
  else
    match Scan.untilLen line [59] false with
    | none => (.ub, st, [])
    | some k =>
      let len := if k > 0 then k else line.length
      if len = 0 then (.chunkMalformed, st, [])
      else
        match Num.toInt64Ex line len 16 with
        | none => (.ub, st, [])
        | some (.success, some (i, e)) =>
          if i < 0 then (.chunkMalformed, st, [])
          else
            let st := { st with bodyLen := i.toNat, seen := 0 }
            if e = [] then (.ok, st, [])
            else
              let r := chunkExts cb st.part (e.drop 1)
              (r.1, st, r.2)
        | some _ => (.chunkLength, st, [])

/-- `formats/http/m_http_reader.c:663-775`, `M_http_read_chunk_start`. -/
def readChunkStart (cb : Cb) (st : St) (p : List UInt8) : Out :=
  if p = [] then ⟨.ok, false, st, p, []⟩
  else
    match Scan.untilLen p crlf false with
    | none => ⟨.ub, false, st, p, []⟩
    | some 0 => ⟨.ok, false, st, p, []⟩
    | some (n + 1) =>
      let r := chunkLine cb st (p.take (n + 1))
      ⟨r.1, r.1 = .ok, r.2.1, p.drop (n + 3), r.2.2⟩

/-- `formats/http/m_http_reader.c:777-808`, `M_http_read_chunk_data`. -/
def readChunkData (cb : Cb) (st : St) (p : List UInt8) : Out :=
  if st.bodyLen = 0 then ⟨.ok, true, st, p, []⟩
  else if p = [] then ⟨.ok, false, st, p, []⟩
  else
    let len := min p.length (st.bodyLen - st.seen)
    let e := Ev.chunkData (p.take len) st.part
    let st' := if call cb e = .ok then { st with seen := st.seen + len } else st
    let q := if call cb e = .ok then p.drop len else p
    if st'.bodyLen = st'.seen ∧ q.length ≥ 2 then
      if crlf.isPrefixOf q then ⟨call cb e, true, st', q.drop 2, [e]⟩
      else ⟨.chunkDataMalformed, false, st', q, [e]⟩
    else ⟨call cb e, false, st', q, [e]⟩

/-- Go on with `k` after a function that succeeded and read all it wanted, `if (res != M_HTTP_ERROR_SUCCESS || !full_read)
goto done;`. -/
def Out.andThen (o : Out) (k : St → List UInt8 → Out) : Out :=
  if o.res ≠ .ok ∨ o.full = false then o
  else
    let o2 := k o.st o.rest
    { o2 with evs := o.evs ++ o2.evs }

/-- A callback without data followed by `goto done` on failure. -/
def emit (cb : Cb) (e : Ev) (st : St) (p : List UInt8) : Out := ⟨call cb e, true, st, p, [e]⟩

/-- `formats/http/m_http_reader.c:853-864`: the trailer of `M_http_read_chunked`. -/
def readTrailer (cb : Cb) (st : St) (p : List UInt8) : Out :=
  (readHeader cb st p).andThen fun st p => emit cb .trailerDone { st with step := .done } p

/-- `formats/http/m_http_reader.c:810-868`, `M_http_read_chunked`; `fuel` bounds the recursion and `read` gives enough. -/
def readChunked (cb : Cb) : Nat → St → List UInt8 → Out
  | 0, st, p => ⟨.ub, false, st, p, []⟩
  | fuel + 1, st, p =>
    let data (st : St) (p : List UInt8) : Out :=
      (readChunkData cb st p).andThen fun st p =>
        if st.bodyLen = 0 then
          (emit cb .chunkFinished { st with step := .trailer, headerLen := 0 } p).andThen (readTrailer cb)
        else
          (emit cb (.chunkDataDone (st.part + 1)) { st with step := .chunkStart, part := st.part + 1 } p).andThen (readChunked cb fuel)
    match st.step with
    | .chunkStart => (readChunkStart cb st p).andThen fun st p => data { st with step := .chunkData } p
    | .chunkData => data st p
    | .trailer => readTrailer cb st p
    | _ => ⟨.ok, true, st, p, []⟩

/-- `formats/http/m_http_reader.c:908-922` and `951-962`: the test for the line end in front of a boundary.  The length of the
data, or `none` for `M_HTTP_ERROR_MULTIPART_INVALID`. -/
def beforeBoundary (p : List UInt8) (n : Nat) : Option Nat :=
  if n = 1 then none
  else if n ≥ 2 then if crlf.isPrefixOf (p.drop (n - 2)) then some (n - 2) else none
  else some n

/-- `formats/http/m_http_reader.c:870-930`, `M_http_read_multipart_preamble`. -/
def readPreamble (cb : Cb) (st : St) (p : List UInt8) : Out :=
  if p = [] then ⟨.ok, false, st, p, []⟩
  else
    match Scan.boundary p p.length st.boundary false with
    | none => ⟨.ub, false, st, p, []⟩
    | some (n, found) =>
      let finish (full : Bool) (consume : Nat) : Out :=
        match beforeBoundary p n with
        | none => ⟨.multipartInvalid, full, st, p, []⟩
        | some d =>
          if d ≠ 0 then
            let e := Ev.preamble (p.take d)
            ⟨call cb e, full, st, if call cb e = .ok then p.drop consume else p, [e]⟩
          else ⟨.ok, full, st, p.drop consume, []⟩
      if found = true ∧ (p.drop n).length ≥ st.boundary.length + 2 then
        let q := p.drop (n + st.boundary.length)
        if dashes.isPrefixOf q then ⟨.multipartMissingData, false, st, p, []⟩
        else if crlf.isPrefixOf q then finish true (n + st.boundary.length + 2)
        else ⟨.multipartInvalid, false, st, p, []⟩
      else finish false n

/-- `formats/http/m_http_reader.c:932-980`, `M_http_read_multipart_data`. -/
def readPartData (cb : Cb) (st : St) (p : List UInt8) : Out :=
  if p = [] then ⟨.ok, false, st, p, []⟩
  else
    match Scan.boundary p p.length st.boundary false with
    | none => ⟨.ub, false, st, p, []⟩
    | some (n, found) =>
      match beforeBoundary p n with
      | none => ⟨.multipartInvalid, false, st, p, []⟩
      | some d =>
        let rest := if found then p.drop (n + st.boundary.length) else p.drop n
        if d ≠ 0 then
          let e := Ev.partData (p.take d) st.part
          if call cb e = .ok then ⟨.ok, found, { st with havePart := true }, rest, [e]⟩
          else ⟨call cb e, false, st, p, [e]⟩
        else ⟨.ok, found, st, rest, []⟩

/-- `formats/http/m_http_reader.c:982-998`, `M_http_read_multipart_check_end`. -/
def readCheckEnd (st : St) (p : List UInt8) : Out :=
  if p.length < 2 then ⟨.ok, false, st, p, []⟩
  else if dashes.isPrefixOf p then ⟨.ok, true, { st with haveEnd := true }, p.drop 2, []⟩
  else if crlf.isPrefixOf p then ⟨.ok, true, st, p.drop 2, []⟩
  else ⟨.multipartInvalid, true, st, p, []⟩

/-- `formats/http/m_http_reader.c:1000-1026`, `M_http_read_multipart_epilouge`. -/
def readEpilogue (cb : Cb) (st : St) (p : List UInt8) : Out :=
  let full (st : St) : Bool := st.haveLen = true ∧ st.bodyLen = st.seen
  let data (st : St) (p : List UInt8) : Out :=
    if p = [] then ⟨.ok, full st, st, p, []⟩ else ⟨call cb (.epilogue p), full st, st, [], [.epilogue p]⟩
  if st.haveEpilogue then data st p
  else if p.length < 2 then ⟨.ok, full st, st, p, []⟩
  else if crlf.isPrefixOf p = false then ⟨.multipartInvalid, false, st, p, []⟩
  else data { st with haveEpilogue := true } (p.drop 2)

/-- `formats/http/m_http_reader.c:1053-1125`: the steps of `M_http_read_multipart` with the parser of the message.  `fuel`
bounds the number of jumps. -/
def multipartLoop (cb : Cb) : Nat → St → List UInt8 → Out
  | 0, st, p => ⟨.ub, false, st, p, []⟩
  | fuel + 1, st, p =>
    let epilogue (st : St) (p : List UInt8) : Out :=
      (readEpilogue cb st p).andThen fun st p => emit cb .epilogueDone { st with step := .done } p
    let checkEnd (st : St) (p : List UInt8) : Out :=
      (readCheckEnd st p).andThen fun st p =>
        if st.haveEnd then (emit cb .partsFinished { st with step := .epilogue } p).andThen epilogue
        else multipartLoop cb fuel { st with step := .partHeader, headerLen := 0 } p
    let data (st : St) (p : List UInt8) : Out :=
      (readPartData cb st p).andThen fun st p =>
        (emit cb (.partDataDone st.part) { st with step := .checkEnd } p).andThen fun st p =>
          checkEnd { st with part := st.part + 1 } p
    let header (st : St) (p : List UInt8) : Out :=
      (readHeader cb st p).andThen fun st p => (emit cb (.partHeaderDone st.part) { st with step := .partData } p).andThen data
    match st.step with
    | .preamble =>
      (readPreamble cb st p).andThen fun st p =>
        (emit cb .preambleDone st p).andThen fun st p => header { st with step := .partHeader, headerLen := 0 } p
    | .partHeader => header st p
    | .partData => data st p
    | .checkEnd => checkEnd st p
    | .epilogue => epilogue st p
    | _ => ⟨.ok, true, st, p, []⟩

/-- `formats/http/m_http_reader.c:1028-1130`, `M_http_read_multipart`.  The bytes left in the parser of the message are
dropped. -/
def readMultipart (cb : Cb) (st : St) (p : List UInt8) : Out :=
  if st.haveLen = true ∧ st.bodyLen = st.seen then
    ⟨if st.havePart = false then .multipartMissing else if st.haveEnd = false then .multipartMissingData else .ok, true, st, p, []⟩
  else
    let n := if st.haveLen then min p.length (st.bodyLen - st.seen) else p.length
    let st' := if st.haveLen then { st with seen := st.seen + n } else st
    if n = 0 then ⟨.ok, true, st', p, []⟩
    else
      let o := multipartLoop cb (n + 1) st' (p.take n)
      { o with rest := p.drop n }

/-- `formats/http/m_http_reader.c:1133-1156`, `M_http_reader_calculate_body_len`. -/
def calculateBodyLen (st : St) : Res × St :=
  if st.format = .chunked then (.ok, st)
  else if st.kind = .request ∧ st.format = .multipart ∧ st.haveLen = false then (.multipartInvalid, st)
  else if st.kind = .request ∧ st.haveLen = false then (.ok, { st with haveLen := true, bodyLen := 0 })
  else (.ok, st)

/-- `formats/http/m_http_reader.c:1207-1224`: the step and format chosen at the end of the header. -/
def chooseStep (st : St) : St :=
  match st.format with
  | .chunked => { st with step := .chunkStart }
  | .multipart => { st with step := .preamble }
  | .body => if st.noBody = true ∧ st.haveLen = false then { st with step := .done, format := .none } else { st with step := .body }
  | _ => { st with step := .done }

/-- `formats/http/m_http_reader.c:1207-1232`: the end of the header in `M_http_reader_read`. -/
def endOfHeader (cb : Cb) (st : St) (p : List UInt8) : Out :=
  let r := calculateBodyLen (chooseStep st)
  if r.1 ≠ .ok then ⟨r.1, true, r.2, p, []⟩ else emit cb (.headerDone r.2.format) r.2 p

/-- `formats/http/m_http_reader.c:1236-1270`: what follows the header in `M_http_reader_read`, by the step. -/
def readContent (cb : Cb) (st : St) (p : List UInt8) : Out :=
  match st.step with
  | .body => (readBody cb st p).andThen fun st p => emit cb .bodyDone { st with step := .done } p
  | .chunkStart | .chunkData | .trailer => readChunked cb (p.length + 1) st p
  | .preamble | .partHeader | .partData | .epilogue => readMultipart cb st p
  | _ => ⟨.ok, true, st, p, []⟩

/-- `formats/http/m_http_reader.c:1174-1270`: the steps of `M_http_reader_read`; `skip` is `M_HTTP_READER_SKIP_START`.  (Line
1185 returns `M_HTTP_ERROR_MOREDATA` at once, which is what `verdict` makes of the success returned here.) -/
def steps (cb : Cb) (uriOk : List UInt8 → Bool) (skip : Bool) (st : St) (p : List UInt8) : Out :=
  let header (st : St) (p : List UInt8) : Out :=
    if st.step = .header then ((readHeader cb st p).andThen (endOfHeader cb)).andThen (readContent cb)
    else readContent cb st p
  let start (st : St) (p : List UInt8) : Out :=
    if st.step = .startLine then (readStartLine cb uriOk st p).andThen fun st p => header { st with step := .header } p
    else header st p
  if st.step = .unknown then
    let q := p.drop (Scan.whitespace false false p)
    if q = [] then ⟨.ok, false, st, q, []⟩ else start { st with step := if skip then .header else .startLine } q
  else start st p

/-- `formats/http/m_http_reader.c:1272-1285`: the overall result. -/
def verdict (r : Res) (st : St) : Result :=
  if r ≠ .ok then .error r
  else if (st.format = .body ∧ st.step = .body ∧ st.haveLen = false) ∨ (st.format = .multipart ∧ st.step = .epilogue ∧ st.haveLen = false) then
    .morePossible
  else if st.step ≠ .done then .moreData
  else .success

/-- `formats/http/m_http_reader.c:1158-1286`, `M_http_reader_read`: the result, `*len_read`, the state and the callbacks. -/
def read (cb : Cb) (uriOk : List UInt8 → Bool) (skip : Bool) (st : St) (data : List UInt8) : Result × Nat × St × List Ev :=
  if data = [] then (.error .invalidUse, 0, st, [])
  else if st.step = .done then (.success, 0, st, [])
  else
    let o := steps cb uriOk skip st data
    (verdict o.res o.st, data.length - o.rest.length, o.st, o.evs)

end Verif.Http
